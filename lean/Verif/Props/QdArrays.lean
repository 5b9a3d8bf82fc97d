/-
C83: quasi-dipole coordinates, magnetic local time and sub-solar point on arrays.
-/
import Verif.Model.QdApi
import Verif.Props.Mlt
import Verif.Props.MioCall

set_option linter.unusedSectionVars false

namespace Verif.Props

open Verif.Geo Verif.Spec Verif.Spec.Qd Verif.Spec.Solar Verif.Arr Verif.Buf Verif.MioField Verif.Qd Verif.Apex Verif.QdApi Verif.Mlt Verif.Time

variable {F : Type} [DecidableEq F]

/-! ### Specification -/

/-- `lat` in [-90, 90] and `lon` in (-180, 180] (degrees) are the spherical coordinates of the vector (x, y, z). -/
structure IsSpherical (x y z lat lon : ℝ) : Prop where
  lat_ge : -90 ≤ lat
  lat_le : lat ≤ 90
  lon_gt : -180 < lon
  lon_le : lon ≤ 180
  first : Real.sqrt (x ^ 2 + y ^ 2 + z ^ 2) * Real.cos (lat * (Real.pi / 180)) * Real.cos (lon * (Real.pi / 180)) = x
  second : Real.sqrt (x ^ 2 + y ^ 2 + z ^ 2) * Real.cos (lat * (Real.pi / 180)) * Real.sin (lon * (Real.pi / 180)) = y
  third : Real.sqrt (x ^ 2 + y ^ 2 + z ^ 2) * Real.sin (lat * (Real.pi / 180)) = z

/-- Points given by arrays without dimensions or of one dimension, all of the same length less than 2^31. -/
structure PointArrays (lat lon rad : NdArray ℝ) (time : NdArray (X ℝ)) (lead : List ℕ) (P : List ℕ → FPt) : Prop where
  vector : lead.length ≤ 1
  short : lead.prod < 2 ^ 31
  lat_items : ItemsOf lat lead (fun i => (P i).lat)
  lon_items : ItemsOf lon lead (fun i => (P i).lon)
  rad_items : ItemsOf rad lead (fun i => (P i).rad)
  time_items : ItemsOf time lead (fun i => .fin (P i).time)

/-- Points for which C48 gives the coordinates: no altitude of exactly -999 km, the first epoch not within a day of -9999.9. -/
structure Usable (sngl : ℝ → ℝ) (lead : List ℕ) (P : List ℕ → FPt) : Prop where
  altitude : ∀ i, Index lead i → (geodetic sngl (P i)).2 ≠ -999
  first : ∀ i, Index lead i → rank lead i = 0 → oneDay < |sngl (P i).time + 9999.9|

/-! ### Reading and writing of the arrays -/

theorem pointCount_eq {dims : List ℕ} (h : dims.length ≤ 1) (hs : dims.prod < 2 ^ 31) : pointCount dims = dims.prod := by
  match dims, h with
  | [], _ => rfl
  | [n], _ =>
    simp only [List.prod_cons, List.prod_nil, mul_one] at hs ⊢
    unfold pointCount
    simp only
    omega

theorem asVector_items {A : Type} {a : NdArray A} {d : List ℕ} {S : List ℕ → A} (h : ItemsOf a d S) (hd : d.length ≤ 1) :
    asVector a = .ok ((indices d).map S) := by
  unfold asVector
  rw [if_neg (by rw [h.dim]; omega), nd_items h]
  rfl

theorem checkDims_eq {A : Type} {a : NdArray A} {d : List ℕ} (h : a.arr.dim = d) : checkDims a d = .ok () := by
  unfold checkDims
  rw [if_neg (by rw [h]; simp), h]
  rw [if_neg]
  simp only [List.any_eq_true, not_exists, not_and]
  intro b hb
  obtain ⟨i, hi, rfl⟩ := List.mem_iff_getElem.mp hb
  simp

theorem checkDims_ne {A : Type} {a : NdArray A} {d : List ℕ} (h : a.arr.dim ≠ d) : checkDims a d = .error (.array .valueError) := by
  unfold checkDims
  by_cases hl : a.arr.dim.length = d.length
  · rw [if_neg (by simpa using hl), if_pos]
    by_contra hc
    apply h
    apply List.ext_getElem hl
    intro i h1 h2
    by_contra hne
    apply hc
    rw [List.any_eq_true]
    refine ⟨true, ?_, rfl⟩
    rw [List.mem_iff_getElem]
    exact ⟨i, by simp [h1, h2], by simp [hne]⟩
  · rw [if_pos hl]

theorem firstN_all {A : Type} {n : ℕ} {xs : List A} (h : xs.length = n) : firstN n xs = .ok xs := by
  unfold firstN
  rw [if_neg (by omega), ← h, List.take_length]

theorem outArray_full (junk : ℕ → ℝ) {dims : List ℕ} {vals : List ℝ} (h : vals.length = dims.prod) : outArray junk dims vals = newArray dims vals := by
  unfold outArray
  rw [List.drop_of_length_le (by simp [h]), List.append_nil]

theorem points_indices (d : List (List ℕ)) (P : List ℕ → FPt) :
    readPoints (d.map fun i => X.fin (P i).time) (d.map fun i => (P i).rad) (d.map fun i => (P i).lat) (d.map fun i => (P i).lon) =
      (d.map P).map FPt.pt := by
  induction d with
  | nil => rfl
  | cons i d ih =>
    simp only [List.map_cons]
    show _ :: readPoints _ _ _ _ = _ :: _
    rw [ih]
    rfl

theorem index_of_rank {dims : List ℕ} {j : ℕ} (h : j < dims.prod) : ∃ i, Index dims i ∧ rank dims i = j ∧ (indices dims)[j]? = some i := by
  have hl : j < (indices dims).length := by rw [indices_length]; exact h
  have hi : Index dims (indices dims)[j] := mem_indices.mp (List.getElem_mem hl)
  have h1 := indices_rank hi
  refine ⟨_, hi, ?_, List.getElem?_eq_getElem hl⟩
  have hr : rank dims (indices dims)[j] < (indices dims).length := by
    by_contra hc
    rw [List.getElem?_eq_none (by omega)] at h1
    cases h1
  rw [List.getElem?_eq_getElem hr, Option.some.injEq] at h1
  exact (List.Nodup.getElem_inj_iff (indices_nodup dims)).mp h1

/-- A list of the values by the indices. -/
theorem list_indexed {A : Type} (z : A) {dims : List ℕ} {xs : List A} (h : xs.length = dims.prod) :
    xs = (indices dims).map (fun i => xs.getD (rank dims i) z) := by
  apply List.ext_getElem
  · rw [List.length_map, indices_length, h]
  · intro j h1 h2
    obtain ⟨i, -, hr, hi⟩ := index_of_rank (h ▸ h1)
    rw [List.getElem?_eq_getElem (by simpa using h2), Option.some.injEq] at hi
    rw [List.getElem_map, hi, hr, List.getD_eq_getElem?_getD, List.getElem?_eq_getElem h1]
    rfl

/-! ### Quasi-dipole coordinates -/

/-- The arrays of the results. -/
def qdResults (lead : List ℕ) (Q : List ℕ → Qd ℝ) (base : Bool) : List (NdArray ℝ) :=
  let new := fun (f : Qd ℝ → ℝ) => newArray lead ((indices lead).map fun i => f (Q i))
  if base then [new Qd.lat, new Qd.lon, new Qd.f11, new Qd.f12, new Qd.f21, new Qd.f22, new Qd.f] else [new Qd.lat, new Qd.lon]

/-- The call once the arguments are read. -/
theorem qdC_call {sngl : ℝ → ℝ} {fs : F → Option (Table ℝ)} {bytes : F → ℕ} {file : F} (hb : bytes file ≤ 1023)
    {lat lon rad : NdArray ℝ} {time : NdArray (X ℝ)} {lead : List ℕ} {P : List ℕ → FPt} (h : PointArrays lat lon rad time lead P)
    (base : Bool) (junk : ℕ → ℝ) {m m' : Mod F ℝ} {qs : List (Qd ℝ)} (hq : qs.length = lead.prod)
    (he : evalQd (env sngl fs junk) file base (((indices lead).map P).map FPt.pt) m = some (qs, m')) :
    evalQdlatlonC (env sngl fs junk) bytes lat lon rad time file base m =
      .ok (qdResults lead (fun i => qs.getD (rank lead i) ⟨0, 0, 0, 0, 0, 0, 0⟩) base, m') := by
  unfold evalQdlatlonC
  rw [if_neg (by unfold maxName; omega)]
  have hl : ∀ {A : Type} (S : List ℕ → A), ((indices lead).map S).length = lead.prod := by
    intro A S; rw [List.length_map, indices_length]
  rw [asVector_items h.lat_items h.vector, asVector_items h.lon_items h.vector, asVector_items h.rad_items h.vector,
    asVector_items h.time_items h.vector]
  simp only [except_ok_bind]
  rw [h.lat_items.dim, checkDims_eq h.lon_items.dim, checkDims_eq h.rad_items.dim, checkDims_eq h.time_items.dim,
    pointCount_eq h.vector h.short, firstN_all (hl _), firstN_all (hl _), firstN_all (hl _), firstN_all (hl _)]
  simp only [except_ok_bind]
  rw [points_indices, he]
  have hn : ∀ f : Qd ℝ → ℝ, outArray (env sngl fs junk).junk lead (qs.map f) =
      newArray lead ((indices lead).map fun i => f (qs.getD (rank lead i) ⟨0, 0, 0, 0, 0, 0, 0⟩)) := by
    intro f
    rw [outArray_full _ (by rw [List.length_map, hq])]
    conv_lhs => rw [list_indexed ⟨0, 0, 0, 0, 0, 0, 0⟩ hq]
    rw [List.map_map]
    rfl
  show Except.ok _ = _
  simp only [hn]
  rfl

theorem qdC_ok {sngl : ℝ → ℝ} {fs : F → Option (Table ℝ)} (hfs : ∀ f t, fs f = some t → TableOk t)
    {file : F} {t : Table ℝ} (hf : fs file = some t) {bytes : F → ℕ} (hb : bytes file ≤ 1023)
    {lat lon rad : NdArray ℝ} {time : NdArray (X ℝ)} {lead : List ℕ} {P : List ℕ → FPt} (h : PointArrays lat lon rad time lead P)
    (hu : Usable sngl lead P) (base : Bool) :
    ∃ Q : List ℕ → Qd ℝ, (∀ junk m, Reachable sngl fs m → ∃ m',
      evalQdlatlonC (env sngl fs junk) bytes lat lon rad time file base m = .ok (qdResults lead Q base, m') ∧ Reachable sngl fs m') ∧
      ∀ i, Index lead i → ∃ i0, Index lead i0 ∧ rank lead i0 ≤ rank lead i ∧ |sngl (P i).time - sngl (P i0).time| ≤ oneDay ∧
        qdAt sngl t base (sngl (P i0).time) (P i) = some (Q i) := by
  have halt : ∀ p ∈ (indices lead).map P, (geodetic sngl p).2 ≠ -999 := by
    intro p hp
    obtain ⟨i, hi, rfl⟩ := List.mem_map.mp hp
    exact hu.altitude i (mem_indices.mp hi)
  have h0 : ∀ p, ((indices lead).map P).head? = some p → oneDay < |sngl p.time + 9999.9| := by
    intro p hp
    have hpos : 0 < lead.prod := by
      rw [← indices_length lead]
      cases hI : indices lead with
      | nil => rw [hI] at hp; simp at hp
      | cons a l => simp
    obtain ⟨i, hi, hr, hg⟩ := index_of_rank hpos
    rw [List.head?_eq_getElem?, List.getElem?_map, hg, Option.map_some, Option.some.injEq] at hp
    subst hp
    exact hu.first i hi hr
  obtain ⟨qs, hqs⟩ := C56_no_history hfs hf base _ halt h0
  obtain ⟨qs', m1, e1, hl, hspec⟩ := C48_epochs hfs hf base _ halt h0 (fun _ => 0) (Reachable.init (sngl := sngl) (fs := fs) (fun _ => 0))
  obtain ⟨m2, e2⟩ := hqs (fun _ => 0) _ (Reachable.init (sngl := sngl) (fs := fs) (fun _ => 0))
  rw [e1] at e2
  simp only [Option.some.injEq, Prod.mk.injEq] at e2
  obtain ⟨rfl, -⟩ := e2
  rw [List.length_map, indices_length] at hl
  refine ⟨fun i => qs'.getD (rank lead i) ⟨0, 0, 0, 0, 0, 0, 0⟩, fun junk m hm => ?_, fun i hi => ?_⟩
  · obtain ⟨m', e⟩ := hqs junk m hm
    exact ⟨m', qdC_call hb h base junk hl e, Reachable.call _ _ _ _ _ _ _ hm e⟩
  · have hr := rank_lt hi
    have hr' : rank lead i < ((indices lead).map P).length := by rw [List.length_map, indices_length]; exact hr
    obtain ⟨j, hj, b1, b2⟩ := hspec (rank lead i) hr' (by omega)
    obtain ⟨i0, hi0, hr0, hg0⟩ := index_of_rank (show j < lead.prod by omega)
    have g1 : ((indices lead).map P)[rank lead i] = P i := by
      have := indices_rank hi
      rw [List.getElem?_eq_getElem (by rw [indices_length]; exact hr), Option.some.injEq] at this
      rw [List.getElem_map, this]
    have g0 : ((indices lead).map P)[j]'(by omega) = P i0 := by
      rw [List.getElem?_eq_getElem (by rw [indices_length]; omega), Option.some.injEq] at hg0
      rw [List.getElem_map, hg0]
    rw [g1, g0] at b1 b2
    refine ⟨i0, hi0, by omega, b1, ?_⟩
    rw [b2]
    show _ = some (qs'.getD _ _)
    rw [List.getD_eq_getElem?_getD, List.getElem?_eq_getElem (by omega)]
    rfl

/-- The part of C58 for the result of a point. -/
theorem qdAt_spherical {sngl : ℝ → ℝ} {t : Table ℝ} (ht : TableOk t) {base : Bool} {e : ℝ} {p : FPt} {q : Qd ℝ} (h : qdAt sngl t base e p = some q)
    {V : ℕ → ℝ → ℝ → ℝ} (hV : IsVector t e (geodetic sngl p).2 V) :
    let φ := (geodetic sngl p).1 * (Real.pi / 180)
    let lam := sngl p.lon * (Real.pi / 180)
    IsSpherical (V 0 φ lam) (V 1 φ lam) (V 2 φ lam) q.lat q.lon := by
  intro φ lam
  obtain ⟨q', h1, h2, h3, h4, h5, h6, h7, h8⟩ := C58_coordinates ht e (geodetic sngl p).1 (sngl p.lon) (geodetic sngl p).2 base hV
  have : q' = q := by
    unfold qdAt at h
    rw [h1] at h
    exact Option.some.inj h
  subst this
  exact ⟨h2, h3, h4, h5, h6, h7, h8⟩

/-- C83: the quasi-dipole latitudes and longitudes of arrays of points: two arrays of the same shape, of the coordinates of the vector of the
file at the geodetic position of each point and at the epoch of this or an earlier point not more than a day away.  The values are the same for
all states which earlier calls can leave.  Missing of the claim for all arrays: those of 2^31 or more items, see `C83_long_arrays`. -/
theorem C83_coordinates_partial {sngl : ℝ → ℝ} {fs : F → Option (Table ℝ)} (hfs : ∀ f t, fs f = some t → TableOk t)
    {file : F} {t : Table ℝ} (hf : fs file = some t) {isFile : F → Bool} (hif : isFile file = true) {bytes : F → ℕ} (hb : bytes file ≤ 1023)
    {lat lon rad : NdArray ℝ} {time : NdArray (X ℝ)} {lead : List ℕ} {P : List ℕ → FPt} (h : PointArrays lat lon rad time lead P)
    (hu : Usable sngl lead P) :
    ∃ A O : List ℕ → ℝ, (∀ junk m, Reachable sngl fs m → ∃ qlat qlon m',
        evalQdlatlon (env sngl fs junk) isFile bytes lat lon rad time file m = .ok ([qlat, qlon], m') ∧ Reachable sngl fs m' ∧
        ItemsOf qlat lead A ∧ ItemsOf qlon lead O) ∧
      ∀ i, Index lead i → ∃ i0, Index lead i0 ∧ rank lead i0 ≤ rank lead i ∧ |sngl (P i).time - sngl (P i0).time| ≤ oneDay ∧
        ∀ V, IsVector t (sngl (P i0).time) (geodetic sngl (P i)).2 V →
          let φ := (geodetic sngl (P i)).1 * (Real.pi / 180)
          let lam := sngl (P i).lon * (Real.pi / 180)
          IsSpherical (V 0 φ lam) (V 1 φ lam) (V 2 φ lam) (A i) (O i) := by
  obtain ⟨Q, h1, h2⟩ := qdC_ok hfs hf hb h hu false
  refine ⟨fun i => (Q i).lat, fun i => (Q i).lon, fun junk m hm => ?_, fun i hi => ?_⟩
  · obtain ⟨m', e, hr⟩ := h1 junk m hm
    refine ⟨_, _, m', ?_, hr, items_new _, items_new _⟩
    unfold evalQdlatlon
    rw [hif]
    exact e
  · obtain ⟨i0, k1, k2, k3, k4⟩ := h2 i hi
    exact ⟨i0, k1, k2, k3, fun V hV => qdAt_spherical (hfs _ _ hf) k4 hV⟩

/-- The base vectors of C59: `φ` and `lam` are the geodetic latitude and the longitude in radians, `V` the vector as a function of them. -/
def IsBase (V : ℕ → ℝ → ℝ → ℝ) (φ lam alt f11 f12 f21 f22 f : ℝ) : Prop :=
  let qlat := fun a b : ℝ => atan2 (V 2 a b) (Real.sqrt (V 0 a b * V 0 a b + V 1 a b * V 1 a b))
  let qlon := fun a b : ℝ => atan2 (V 1 a b) (V 0 a b)
  let scale := (radiusMean + alt) * Real.sqrt (V 0 φ lam * V 0 φ lam + V 1 φ lam * V 1 φ lam + V 2 φ lam * V 2 φ lam)
  ∃ latn late lonn lone,
    HasDerivAt (fun a => qlat a lam) latn φ ∧ HasDerivAt (fun b => qlat φ b) late lam ∧
    HasDerivAt (fun a => qlon a lam) lonn φ ∧ HasDerivAt (fun b => qlon φ b) lone lam ∧
    f11 = scale * latn / (radiusM φ + alt) ∧
    f12 = -(scale * late / ((radiusN φ + alt) * Real.cos φ)) ∧
    f21 = -(scale * Real.cos (qlat φ lam) * lonn / (radiusM φ + alt)) ∧
    f22 = scale * Real.cos (qlat φ lam) * lone / ((radiusN φ + alt) * Real.cos φ) ∧
    f = f11 * f22 - f12 * f21

/-- C83: with the base vectors, seven arrays: the coordinates as above, and away from the poles and from the longitude of 180 degrees the
base vectors of C59.  Missing: arrays of 2^31 or more items. -/
theorem C83_base_vectors_partial {sngl : ℝ → ℝ} {fs : F → Option (Table ℝ)} (hfs : ∀ f t, fs f = some t → TableOk t)
    {file : F} {t : Table ℝ} (hf : fs file = some t) {isFile : F → Bool} (hif : isFile file = true) {bytes : F → ℕ} (hb : bytes file ≤ 1023)
    {lat lon rad : NdArray ℝ} {time : NdArray (X ℝ)} {lead : List ℕ} {P : List ℕ → FPt} (h : PointArrays lat lon rad time lead P)
    (hu : Usable sngl lead P) :
    ∃ A O F11 F12 F21 F22 FF : List ℕ → ℝ, (∀ junk m, Reachable sngl fs m → ∃ qlat qlon f11 f12 f21 f22 f m',
        evalQdlatlonBase (env sngl fs junk) isFile bytes lat lon rad time file m = .ok ([qlat, qlon, f11, f12, f21, f22, f], m') ∧
        Reachable sngl fs m' ∧ ItemsOf qlat lead A ∧ ItemsOf qlon lead O ∧ ItemsOf f11 lead F11 ∧ ItemsOf f12 lead F12 ∧
        ItemsOf f21 lead F21 ∧ ItemsOf f22 lead F22 ∧ ItemsOf f lead FF) ∧
      ∀ i, Index lead i → ∃ i0, Index lead i0 ∧ rank lead i0 ≤ rank lead i ∧ |sngl (P i).time - sngl (P i0).time| ≤ oneDay ∧
        ∀ V, IsVector t (sngl (P i0).time) (geodetic sngl (P i)).2 V →
          let φ := (geodetic sngl (P i)).1 * (Real.pi / 180)
          let lam := sngl (P i).lon * (Real.pi / 180)
          IsSpherical (V 0 φ lam) (V 1 φ lam) (V 2 φ lam) (A i) (O i) ∧
          (-6000 < (geodetic sngl (P i)).2 → -90 < (geodetic sngl (P i)).1 → (geodetic sngl (P i)).1 < 90 →
            0 < V 0 φ lam ∨ V 1 φ lam ≠ 0 → IsBase V φ lam (geodetic sngl (P i)).2 (F11 i) (F12 i) (F21 i) (F22 i) (FF i)) := by
  obtain ⟨Q, h1, h2⟩ := qdC_ok hfs hf hb h hu true
  refine ⟨fun i => (Q i).lat, fun i => (Q i).lon, fun i => (Q i).f11, fun i => (Q i).f12, fun i => (Q i).f21, fun i => (Q i).f22,
    fun i => (Q i).f, fun junk m hm => ?_, fun i hi => ?_⟩
  · obtain ⟨m', e, hr⟩ := h1 junk m hm
    refine ⟨_, _, _, _, _, _, _, m', ?_, hr, items_new _, items_new _, items_new _, items_new _, items_new _, items_new _, items_new _⟩
    unfold evalQdlatlonBase
    rw [hif]
    exact e
  · obtain ⟨i0, k1, k2, k3, k4⟩ := h2 i hi
    refine ⟨i0, k1, k2, k3, fun V hV => ⟨qdAt_spherical (hfs _ _ hf) k4 hV, fun c1 c2 c3 c4 => ?_⟩⟩
    obtain ⟨q, latn, late, lonn, lone, e1, d1, d2, d3, d4, -, -, b1, b2, b3, b4, b5⟩ :=
      C59_base_vectors (hfs _ _ hf) (sngl (P i0).time) (geodetic sngl (P i)).1 (sngl (P i).lon) (geodetic sngl (P i)).2 hV c1 ⟨c2, c3⟩ c4
    have : q = Q i := by
      unfold qdAt at k4
      rw [e1] at k4
      exact Option.some.inj k4
    subst this
    exact ⟨latn, late, lonn, lone, d1, d2, d3, d4, b1, b2, b3, b4, b5⟩

/-- C83: if the epochs of any two points are equal or differ by more than a day, the results of an array are those of its points given by arrays
without dimensions, one by one.  Missing: other epochs, see `C48_batch_differs`; arrays of 2^31 or more items. -/
theorem C83_pointwise_partial {sngl : ℝ → ℝ} {fs : F → Option (Table ℝ)} (hfs : ∀ f t, fs f = some t → TableOk t)
    {file : F} {t : Table ℝ} (hf : fs file = some t) {isFile : F → Bool} (hif : isFile file = true) {bytes : F → ℕ} (hb : bytes file ≤ 1023)
    {lat lon rad : NdArray ℝ} {time : NdArray (X ℝ)} {lead : List ℕ} {P : List ℕ → FPt} (h : PointArrays lat lon rad time lead P)
    (hu : Usable sngl lead P) (hfar : ∀ i, Index lead i → oneDay < |sngl (P i).time + 9999.9|)
    (hd : ∀ i j, Index lead i → Index lead j → sngl (P i).time = sngl (P j).time ∨ oneDay < |sngl (P i).time - sngl (P j).time|)
    {junk : ℕ → ℝ} {m : Mod F ℝ} (hm : Reachable sngl fs m) :
    ∃ qlat qlon m' A O, evalQdlatlon (env sngl fs junk) isFile bytes lat lon rad time file m = .ok ([qlat, qlon], m') ∧
      ItemsOf qlat lead A ∧ ItemsOf qlon lead O ∧
      ∀ i, Index lead i → ∀ (lat1 lon1 rad1 : NdArray ℝ) (time1 : NdArray (X ℝ)), PointArrays lat1 lon1 rad1 time1 [] (fun _ => P i) →
        ∀ junk1 m1, Reachable sngl fs m1 → ∃ qlat1 qlon1 m2,
          evalQdlatlon (env sngl fs junk1) isFile bytes lat1 lon1 rad1 time1 file m1 = .ok ([qlat1, qlon1], m2) ∧
          ItemsOf qlat1 [] (fun _ => A i) ∧ ItemsOf qlon1 [] (fun _ => O i) := by
  obtain ⟨Q, h1, h2⟩ := qdC_ok hfs hf hb h hu false
  obtain ⟨m', e, -⟩ := h1 junk m hm
  refine ⟨_, _, m', fun i => (Q i).lat, fun i => (Q i).lon, ?_, items_new _, items_new _, fun i hi lat1 lon1 rad1 time1 hp junk1 m1 hm1 => ?_⟩
  · unfold evalQdlatlon
    rw [hif]
    exact e
  · obtain ⟨Q1, k1, k2⟩ := qdC_ok hfs hf hb hp ⟨fun _ _ => hu.altitude i hi, fun _ _ _ => hfar i hi⟩ false
    obtain ⟨m2, e2, -⟩ := k1 junk1 m1 hm1
    obtain ⟨i0, b1, -, b3, b4⟩ := h2 i hi
    obtain ⟨-, -, -, -, c4⟩ := k2 [] List.Forall₂.nil
    have he : sngl (P i).time = sngl (P i0).time := by
      rcases hd i i0 hi b1 with h4 | h4
      · exact h4
      · exact absurd b3 (not_le.mpr h4)
    have hq : Q1 [] = Q i := by
      have c5 : qdAt sngl t false (sngl (P i).time) (P i) = some (Q1 []) := c4
      rw [he, b4] at c5
      exact (Option.some.inj c5).symm
    refine ⟨newArray [] [(Q1 []).lat], newArray [] [(Q1 []).lon], m2, ?_, ?_, ?_⟩
    · unfold evalQdlatlon
      rw [hif]
      exact e2
    · rw [hq]; exact items_new (dims := []) fun _ => (Q i).lat
    · rw [hq]; exact items_new (dims := []) fun _ => (Q i).lon

theorem asVector_deep {A : Type} {a : NdArray A} (h : 1 < a.arr.dim.length) : asVector a = .error (.array .valueError) := by
  unfold asVector
  rw [if_pos h]

/-- C83: calls which raise an error before anything is evaluated: no such file, a name of more than 1023 bytes, an array of more than one
dimension, arrays of different shapes (no broadcasting, not even of scalars). -/
theorem C83_refused (E : Env F ℝ) (isFile : F → Bool) (bytes : F → ℕ) (lat lon rad : NdArray ℝ) (time : NdArray (X ℝ)) (file : F) (m : Mod F ℝ) :
    (isFile file = false → evalQdlatlon E isFile bytes lat lon rad time file m = .error .ioError ∧
      evalQdlatlonBase E isFile bytes lat lon rad time file m = .error .ioError) ∧
    (isFile file = true → 1023 < bytes file → evalQdlatlon E isFile bytes lat lon rad time file m = .error .runtimeError ∧
      evalQdlatlonBase E isFile bytes lat lon rad time file m = .error .runtimeError) ∧
    (isFile file = true → bytes file ≤ 1023 → ∀ dlat dlon drad dtime A O R T,
      ItemsOf lat dlat A → ItemsOf lon dlon O → ItemsOf rad drad R → ItemsOf time dtime T →
      (1 < dlat.length ∨ dlon ≠ dlat ∨ drad ≠ dlat ∨ dtime ≠ dlat) →
      evalQdlatlon E isFile bytes lat lon rad time file m = .error (.array .valueError) ∧
      evalQdlatlonBase E isFile bytes lat lon rad time file m = .error (.array .valueError)) := by
  refine ⟨fun h => ?_, fun h hb => ?_, fun h hb dlat dlon drad dtime A O R T i1 i2 i3 i4 hor => ?_⟩
  · unfold evalQdlatlon evalQdlatlonBase
    rw [h]
    exact ⟨rfl, rfl⟩
  · unfold evalQdlatlon evalQdlatlonBase evalQdlatlonC
    rw [h]
    have hm : bytes file > maxName := hb
    simp only [hm, if_true]
    exact ⟨rfl, rfl⟩
  · have key : ∀ base, evalQdlatlonC E bytes lat lon rad time file base m = .error (.array .valueError) := by
      intro base
      unfold evalQdlatlonC
      rw [if_neg (by unfold maxName; omega)]
      by_cases h1 : 1 < dlat.length
      · rw [asVector_deep (by rw [i1.dim]; exact h1)]; rfl
      rw [asVector_items i1 (by omega), except_ok_bind]
      by_cases h2 : 1 < dlon.length
      · rw [asVector_deep (by rw [i2.dim]; exact h2)]; rfl
      rw [asVector_items i2 (by omega), except_ok_bind]
      by_cases h3 : 1 < drad.length
      · rw [asVector_deep (by rw [i3.dim]; exact h3)]; rfl
      rw [asVector_items i3 (by omega), except_ok_bind]
      by_cases h4 : 1 < dtime.length
      · rw [asVector_deep (by rw [i4.dim]; exact h4)]; rfl
      rw [asVector_items i4 (by omega), except_ok_bind]
      simp only [i1.dim]
      by_cases c2 : dlon = dlat
      · rw [checkDims_eq (by rw [i2.dim, c2]), except_ok_bind]
        by_cases c3 : drad = dlat
        · rw [checkDims_eq (by rw [i3.dim, c3]), except_ok_bind]
          have c4 : dtime ≠ dlat := by
            rcases hor with c | c | c | c
            · exact absurd c h1
            · exact absurd c2 c
            · exact absurd c3 c
            · exact c
          rw [checkDims_ne (by rw [i4.dim]; exact c4)]; rfl
        · rw [checkDims_ne (by rw [i3.dim]; exact c3)]; rfl
      · rw [checkDims_ne (by rw [i2.dim]; exact c2)]; rfl
    unfold evalQdlatlon evalQdlatlonBase
    rw [h]
    exact ⟨key false, key true⟩

theorem pointCount_long : pointCount [2 ^ 31] = 0 := by decide

theorem outArray_none (junk : ℕ → ℝ) (dims : List ℕ) : ItemsOf (outArray junk dims []) dims (fun i => junk (rank dims i)) := by
  have hj : outArray junk dims [] = newArray dims ((indices dims).map fun i => junk (rank dims i)) := by
    unfold outArray
    rw [List.nil_append, List.length_nil, List.drop_zero]
    congr 1
    apply List.ext_getElem
    · rw [List.length_map, List.length_map, List.length_range, indices_length]
    · intro j h1 h2
      obtain ⟨i, -, hr, hi⟩ := index_of_rank (show j < dims.prod by simpa using h1)
      rw [List.getElem?_eq_getElem (by simpa using h2), Option.some.injEq] at hi
      simp only [List.getElem_map, List.getElem_range, hi, hr]
  rw [hj]
  exact items_new _

/-- C83, negation for long arrays: of arrays of 2^31 points nothing is evaluated; the results are the uninitialised memory, without an error. -/
theorem C83_long_arrays {sngl : ℝ → ℝ} {fs : F → Option (Table ℝ)} {file : F} {isFile : F → Bool} (hif : isFile file = true) {bytes : F → ℕ}
    (hb : bytes file ≤ 1023) {lat lon rad : NdArray ℝ} {time : NdArray (X ℝ)} {A O R : List ℕ → ℝ} {T : List ℕ → X ℝ}
    (i1 : ItemsOf lat [2 ^ 31] A) (i2 : ItemsOf lon [2 ^ 31] O) (i3 : ItemsOf rad [2 ^ 31] R) (i4 : ItemsOf time [2 ^ 31] T)
    (junk : ℕ → ℝ) (m : Mod F ℝ) :
    ∃ qlat qlon, evalQdlatlon (env sngl fs junk) isFile bytes lat lon rad time file m = .ok ([qlat, qlon], m) ∧
      ItemsOf qlat [2 ^ 31] (fun i => junk (rank [2 ^ 31] i)) ∧ ItemsOf qlon [2 ^ 31] (fun i => junk (rank [2 ^ 31] i)) := by
  refine ⟨outArray junk [2 ^ 31] [], outArray junk [2 ^ 31] [], ?_, outArray_none _ _, outArray_none _ _⟩
  have hf : ∀ {B : Type} (xs : List B), firstN 0 xs = .ok [] := by
    intro B xs
    unfold firstN
    rw [if_neg (by omega), List.take_zero]
  unfold evalQdlatlon evalQdlatlonC
  have hm : ¬ bytes file > maxName := by unfold maxName; omega
  rw [hif, if_neg (by decide), if_neg hm, asVector_items i1 (by simp), asVector_items i2 (by simp), asVector_items i3 (by simp),
    asVector_items i4 (by simp)]
  simp only [except_ok_bind]
  rw [i1.dim, checkDims_eq i2.dim, checkDims_eq i3.dim, checkDims_eq i4.dim, pointCount_long]
  simp only [except_ok_bind, hf]
  rfl

/-! ### Magnetic local time and sub-solar point -/

/-- C83: the sub-solar points of an array of times of the years 1601 to 2100: two arrays of the same shape.
Missing: arrays of 2^31 or more items. -/
theorem C83_subsolar_partial {time : NdArray ℝ} {lead : List ℕ} {T : List ℕ → ℝ} (hl : lead.length ≤ 1) (hs : lead.prod < 2 ^ 31)
    (ht : ItemsOf time lead T) (hsup : ∀ i, Index lead i → Supported (T i)) (junk : ℕ → ℝ) :
    ∃ lat lon A O, evalSubsolArr libm junk time = .ok (lat, lon) ∧ ItemsOf lat lead A ∧ ItemsOf lon lead O ∧
      ∀ i, Index lead i → IsSubsolar used (sunDays (T i)) (T i) (A i) (O i) := by
  choose! A O h1 h2 using fun i (hi : Index lead i) => subsolAt_days (T i) (hsup i hi)
  have hm : evalSubsol libm ((indices lead).map T) = some ((indices lead).map fun i => (A i, O i)) := by
    rw [C61_pointwise, List.mapM_map]
    have : ∀ l : List (List ℕ), (∀ i ∈ l, Index lead i) → l.mapM (fun i => subsolAt libm (T i)) = some (l.map fun i => (A i, O i)) := by
      intro l
      induction l with
      | nil => intro _; rfl
      | cons i l ih =>
        intro h
        rw [List.mapM_cons, h1 i (h i (by simp)), ih fun j hj => h j (by simp [hj])]
        rfl
    exact this _ fun i hi => mem_indices.mp hi
  refine ⟨newArray lead ((indices lead).map A), newArray lead ((indices lead).map O), A, O, ?_, items_new _, items_new _, h2⟩
  have hn : ∀ S : List ℕ → ℝ, outArray junk lead ((indices lead).map S) = newArray lead ((indices lead).map S) := by
    intro S
    exact outArray_full _ (by rw [List.length_map, indices_length])
  unfold evalSubsolArr
  rw [asVector_items ht hl, except_ok_bind]
  simp only [ht.dim]
  rw [pointCount_eq hl hs, firstN_all (by rw [List.length_map, indices_length]), except_ok_bind, hm]
  show Except.ok (outArray junk lead (List.map Prod.fst _), outArray junk lead (List.map Prod.snd _)) = _
  rw [List.map_map, List.map_map]
  show Except.ok (outArray junk lead ((indices lead).map A), outArray junk lead ((indices lead).map O)) = _
  rw [hn, hn]

/-- C83: a time outside of the years 1601 to 2100, if not before the year 1583, anywhere in the array stops the process: no array is returned. -/
theorem C83_subsolar_stop {time : NdArray ℝ} {lead : List ℕ} {T : List ℕ → ℝ} (hl : lead.length ≤ 1) (hs : lead.prod < 2 ^ 31)
    (ht : ItemsOf time lead T) {i : List ℕ} (hi : Index lead i) (h1 : (yearStart 1583 : ℝ) ≤ T i) (h2 : ¬ Supported (T i)) (junk : ℕ → ℝ) :
    evalSubsolArr libm junk time = .error .stopped := by
  have hm : evalSubsol libm ((indices lead).map T) = none := by
    rw [C61_pointwise, List.mapM_map]
    have : ∀ l : List (List ℕ), i ∈ l → l.mapM (fun i => subsolAt libm (T i)) = none := by
      intro l
      induction l with
      | nil => intro h; simp at h
      | cons j l ih =>
        intro h
        rw [List.mapM_cons]
        rcases List.mem_cons.mp h with rfl | h
        · rw [(C61_stop _ h1 h2).1]; rfl
        · rw [ih h]
          cases subsolAt libm (T j) <;> rfl
    exact this _ (mem_indices.mpr hi)
  unfold evalSubsolArr
  rw [asVector_items ht hl, except_ok_bind]
  simp only [ht.dim]
  rw [pointCount_eq hl hs, firstN_all (by rw [List.length_map, indices_length]), except_ok_bind, hm]
  rfl

/-- C83: the magnetic local times of arrays of quasi-dipole longitudes and times: an array of the same shape; the pole is that of the epoch
of this or an earlier point not more than a day away.  Missing: arrays of 2^31 or more items. -/
theorem C83_local_time_partial (sngl : ℝ → ℝ) (M : MainField ℝ) (hM : EpochsOk M.epochs) (g10 g11 h11 : ℝ → ℝ)
    (i1 : IsExtended M.epochs (fun k => (M.coef k).1) M.rate.1 g10) (i2 : IsExtended M.epochs (fun k => (M.coef k).2.1) M.rate.2.1 g11)
    (i3 : IsExtended M.epochs (fun k => (M.coef k).2.2) M.rate.2.2 h11) (h0 : (0 : ℝ) ≤ M.epochs[0]'hM.pos)
    {qdlon time : NdArray ℝ} {lead : List ℕ} {O T : List ℕ → ℝ} (hl : lead.length ≤ 1) (hs : lead.prod < 2 ^ 31)
    (ho : ItemsOf qdlon lead O) (ht : ItemsOf time lead T) (hlon : ∀ i, Index lead i → |O i| ≤ 180) (hsup : ∀ i, Index lead i → Supported (T i))
    (hep : ∀ i, Index lead i → M.epochs[0]'hM.pos ≤ mltEpoch sngl (T i)) (hne : ∀ i, Index lead i → g10 (mltEpoch sngl (T i)) ≠ 0)
    (junk : ℕ → ℝ) :
    ∃ mlt H, evalMltArr (mltEnv sngl M) junk qdlon time = .ok mlt ∧ ItemsOf mlt lead H ∧
      ∀ i, Index lead i → ∃ i0, Index lead i0 ∧ rank lead i0 ≤ rank lead i ∧ ∃ e, e = mltEpoch sngl (T i0) ∧ |mltEpoch sngl (T i) - e| ≤ oneDay ∧
        ∃ colat elon lat lon sun, IsPole (g10 e) (g11 e) (h11 e) colat elon ∧ IsSubsolar used (sunDays (T i)) (T i) lat lon ∧
          IsLongitude (poleFrame colat elon (Solar.direction lat lon)) sun ∧ IsLocalTime (O i) sun (H i) := by
  have hz : ((indices lead).map O).zip ((indices lead).map T) = (indices lead).map fun i => (O i, T i) := by
    rw [List.zip_map']
  have hmem : ∀ p ∈ (indices lead).map (fun i => (O i, T i)), ∃ i, Index lead i ∧ p = (O i, T i) := by
    intro p hp
    obtain ⟨i, hi, rfl⟩ := List.mem_map.mp hp
    exact ⟨i, mem_indices.mp hi, rfl⟩
  obtain ⟨qs, e, hq, hspec⟩ := C60_batch sngl M hM g10 g11 h11 i1 i2 i3 (by exact_mod_cast h0) ((indices lead).map fun i => (O i, T i))
    (fun p hp => by obtain ⟨i, hi, rfl⟩ := hmem p hp; exact hlon i hi) (fun p hp => by obtain ⟨i, hi, rfl⟩ := hmem p hp; exact hsup i hi)
    (fun p hp => by obtain ⟨i, hi, rfl⟩ := hmem p hp; exact hep i hi) (fun p hp => by obtain ⟨i, hi, rfl⟩ := hmem p hp; exact hne i hi)
  rw [List.length_map, indices_length] at hq
  refine ⟨newArray lead qs, fun i => qs.getD (rank lead i) 0, ?_, new_items 0 lead qs hq, fun i hi => ?_⟩
  · unfold evalMltArr
    rw [asVector_items ho hl, asVector_items ht hl]
    simp only [except_ok_bind]
    rw [ho.dim, checkDims_eq ht.dim, pointCount_eq hl hs, firstN_all (by rw [List.length_map, indices_length]),
      firstN_all (by rw [List.length_map, indices_length])]
    simp only [except_ok_bind]
    rw [hz, e]
    show Except.ok (outArray junk lead qs) = _
    rw [outArray_full _ hq]
  · have hr := rank_lt hi
    obtain ⟨j, hj, k⟩ := hspec (rank lead i) (by rw [List.length_map, indices_length]; exact hr) (by omega)
    obtain ⟨i0, hi0, hr0, hg0⟩ := index_of_rank (show j < lead.prod by omega)
    have g1 : (indices lead)[rank lead i]'(by rw [indices_length]; exact hr) = i := by
      have := indices_rank hi
      rwa [List.getElem?_eq_getElem (by rw [indices_length]; exact hr), Option.some.injEq] at this
    have g0 : (indices lead)[j]'(by rw [indices_length]; omega) = i0 := by
      rwa [List.getElem?_eq_getElem (by rw [indices_length]; omega), Option.some.injEq] at hg0
    simp only [List.getElem_map, g1, g0] at k
    refine ⟨i0, hi0, by omega, ?_⟩
    have hv : qs.getD (rank lead i) 0 = qs[rank lead i] := by
      rw [List.getD_eq_getElem?_getD, List.getElem?_eq_getElem (by omega)]; rfl
    simp only [hv]
    exact k

/-- C83: arrays of more than one dimension or of different shapes are refused by the other functions too. -/
theorem C83_refused_times (E : Mlt.Env ℝ) (L : Libm ℝ) (junk : ℕ → ℝ) {qdlon time : NdArray ℝ} {do' dt : List ℕ} {O T : List ℕ → ℝ}
    (ho : ItemsOf qdlon do' O) (ht : ItemsOf time dt T) :
    (1 < dt.length → evalSubsolArr L junk time = .error (.array .valueError)) ∧
    (1 < dt.length ∨ dt ≠ do' → evalMltArr E junk qdlon time = .error (.array .valueError)) := by
  constructor
  · intro h
    unfold evalSubsolArr
    rw [asVector_deep (by rw [ht.dim]; exact h)]
    rfl
  · intro h
    unfold evalMltArr
    by_cases h1 : 1 < do'.length
    · rw [asVector_deep (by rw [ho.dim]; exact h1)]; rfl
    rw [asVector_items ho (by omega), except_ok_bind]
    by_cases h2 : 1 < dt.length
    · rw [asVector_deep (by rw [ht.dim]; exact h2)]; rfl
    rw [asVector_items ht (by omega), except_ok_bind]
    simp only [ho.dim]
    rw [checkDims_ne (by rw [ht.dim]; exact h.resolve_left h2)]
    rfl

/-- C83, negation for long arrays: nor are the local times and the sub-solar points evaluated. -/
theorem C83_long_times (E : Mlt.Env ℝ) (L : Libm ℝ) {qdlon time : NdArray ℝ} {O T : List ℕ → ℝ} (i1 : ItemsOf qdlon [2 ^ 31] O)
    (i2 : ItemsOf time [2 ^ 31] T) (junk : ℕ → ℝ) :
    ∃ mlt lat lon, evalMltArr E junk qdlon time = .ok mlt ∧ evalSubsolArr L junk time = .ok (lat, lon) ∧
      ItemsOf mlt [2 ^ 31] (fun i => junk (rank [2 ^ 31] i)) ∧ ItemsOf lat [2 ^ 31] (fun i => junk (rank [2 ^ 31] i)) ∧
      ItemsOf lon [2 ^ 31] (fun i => junk (rank [2 ^ 31] i)) := by
  have hf : ∀ {B : Type} (xs : List B), firstN 0 xs = .ok [] := by
    intro B xs
    unfold firstN
    rw [if_neg (by omega), List.take_zero]
  refine ⟨outArray junk [2 ^ 31] [], outArray junk [2 ^ 31] [], outArray junk [2 ^ 31] [], ?_, ?_, outArray_none _ _, outArray_none _ _, outArray_none _ _⟩
  · unfold evalMltArr
    rw [asVector_items i1 (by simp), asVector_items i2 (by simp)]
    simp only [except_ok_bind]
    rw [i1.dim, checkDims_eq i2.dim, pointCount_long]
    simp only [except_ok_bind, hf]
    rfl
  · unfold evalSubsolArr
    rw [asVector_items i2 (by simp), except_ok_bind]
    simp only [i2.dim]
    rw [pointCount_long, hf, except_ok_bind]
    rfl

/-! ### Concrete cases -/

/-- Three points in reverse order in the memory. -/
def backwards {A : Type} (a b c : A) : NdArray A := ⟨fun p => if p = 0 then some c else if p = 1 then some b else if p = 2 then some a else none,
  ⟨2, [3], [-1]⟩⟩

theorem backwards_items {A : Type} (a b c : A) : ItemsOf (backwards a b c) [3] (fun i => match i with | [0] => a | [1] => b | _ => c) := by
  refine ⟨rfl, rfl, fun idx hi => ?_⟩
  cases hi with
  | cons h t =>
    cases t
    rename_i n
    have : n = 0 ∨ n = 1 ∨ n = 2 := by omega
    rcases this with rfl | rfl | rfl <;> simp [elem, backwards]

/-- Points on the equator with the epochs 2000.25, 2000.75, 2000.25. -/
noncomputable def threePoints : List ℕ → FPt
  | [0] => ⟨2000.25, 7000, 0, 0⟩
  | [1] => ⟨2000.75, 7000, 0, 20⟩
  | _ => ⟨2000.25, 7000, 0, 30⟩

theorem threePoints_arrays : PointArrays (backwards 0 0 0) (backwards 0 20 30) (backwards 7000 7000 7000)
    (backwards (.fin 2000.25) (.fin 2000.75) (.fin 2000.25)) [3] threePoints := by
  have key : ∀ {A : Type} (f : FPt → A), (fun i : List ℕ => match i with
      | [0] => f ⟨2000.25, 7000, 0, 0⟩ | [1] => f ⟨2000.75, 7000, 0, 20⟩ | _ => f ⟨2000.25, 7000, 0, 30⟩) = fun i => f (threePoints i) := by
    intro A f
    funext i
    unfold threePoints
    split <;> rfl
  refine ⟨by simp, by simp, ?_, ?_, ?_, ?_⟩
  · rw [← key FPt.lat]; exact backwards_items _ _ _
  · rw [← key FPt.lon]; exact backwards_items _ _ _
  · rw [← key FPt.rad]; exact backwards_items _ _ _
  · rw [← key fun p => X.fin p.time]; exact backwards_items _ _ _

theorem threePoints_usable : Usable id [3] threePoints := by
  have hg : ∀ i, geodetic id (threePoints i) = (0, 7000 - 6378.137) := by
    intro i
    unfold threePoints
    split <;> exact convrt4_equator 7000
  refine ⟨fun i _ => by rw [hg]; norm_num, fun i _ _ => ?_⟩
  unfold threePoints oneDay
  split <;> (simp only [id]; rw [abs_of_pos] <;> norm_num)

example : ∃ A O : List ℕ → ℝ, ∃ qlat qlon m', evalQdlatlon (env id (fun _ : Unit => some twoEpochs) (fun _ => 7)) (fun _ => true) (fun _ => 40)
    (backwards 0 0 0) (backwards 0 20 30) (backwards 7000 7000 7000) (backwards (.fin 2000.25) (.fin 2000.75) (.fin 2000.25)) ()
    (Mod.init (fun _ => 3)) = .ok ([qlat, qlon], m') ∧ ItemsOf qlat [3] A ∧ ItemsOf qlon [3] O ∧
    ∀ i, Index [3] i → -90 ≤ A i ∧ A i ≤ 90 := by
  obtain ⟨A, O, h1, h2⟩ := C83_coordinates_partial twoEpochs_env rfl (isFile := fun _ => true) rfl (bytes := fun _ => 40) (by norm_num)
    threePoints_arrays threePoints_usable
  obtain ⟨qlat, qlon, m', e, -, i1, i2⟩ := h1 (fun _ => 7) _ (Reachable.init (sngl := id) (fun _ => 3))
  refine ⟨A, O, qlat, qlon, m', e, i1, i2, fun i hi => ?_⟩
  obtain ⟨i0, -, -, -, k⟩ := h2 i hi
  obtain ⟨V, hV⟩ := isVector_exists twoEpochs_ok (id (threePoints i0).time) (geodetic id (threePoints i)).2
  exact ⟨(k V hV).lat_ge, (k V hV).lat_le⟩

example : evalQdlatlon (env id (fun _ : Unit => some twoEpochs) (fun _ => 7)) (fun _ => true) (fun _ => 40)
    (backwards 0 0 0) (newArray [] [20]) (backwards 7000 7000 7000) (backwards (.fin 2000.25) (.fin 2000.75) (.fin 2000.25)) ()
    (Mod.init (fun _ => 3)) = .error (.array .valueError) :=
  ((C83_refused _ (fun _ => true) (fun _ => 40) _ _ _ _ () _).2.2 rfl (by norm_num) [3] [] [3] [3] _ _ _ _ (backwards_items _ _ _)
    (items_new (dims := []) fun _ => 20) (backwards_items _ _ _) (backwards_items _ _ _) (Or.inr (Or.inl (by simp)))).1

/-- A time repeated 2^31 times. -/
def repeated {A : Type} (a : A) : NdArray A := ⟨fun _ => some a, ⟨0, [2 ^ 31], [0]⟩⟩

theorem repeated_items {A : Type} (a : A) : ItemsOf (repeated a) [2 ^ 31] (fun _ => a) := ⟨rfl, rfl, fun _ _ => rfl⟩

example : ∃ qlat qlon, evalQdlatlon (env id (fun _ : Unit => some twoEpochs) (fun _ => 100)) (fun _ => true) (fun _ => 40)
    (repeated 0) (repeated 20) (repeated 7000) (repeated (.fin 2000.25)) () (Mod.init (fun _ => 3)) = .ok ([qlat, qlon], Mod.init (fun _ => 3)) ∧
    ItemsOf qlat [2 ^ 31] (fun _ => 100) := by
  obtain ⟨qlat, qlon, e, h, -⟩ := C83_long_arrays (sngl := id) (fs := fun _ : Unit => some twoEpochs) (file := ()) (isFile := fun _ => true) rfl
    (bytes := fun _ => 40) (by norm_num) (repeated_items 0) (repeated_items 20) (repeated_items 7000) (repeated_items (.fin 2000.25))
    (fun _ => 100) (Mod.init (fun _ => 3))
  exact ⟨qlat, qlon, e, h⟩

example : ∃ lat lon A O, evalSubsolArr libm (fun _ => 7) (backwards 0 5923.25 (-1)) = .ok (lat, lon) ∧ ItemsOf lat [3] A ∧ ItemsOf lon [3] O ∧
    IsSubsolar used (5923.25 - 1 / 2) 5923.25 (A [1]) (O [1]) := by
  have hs : ∀ x : ℝ, -1 ≤ x → x ≤ 6000 → Supported x := by
    intro x h1 h2
    have e1 : yearStart 1601 = -145731 := by decide
    have e2 : yearStart 2101 = 36890 := by decide
    unfold Supported
    rw [e1, e2]
    constructor <;> norm_num <;> linarith
  obtain ⟨lat, lon, A, O, e, h1, h2, h3⟩ := C83_subsolar_partial (by simp) (by simp) (backwards_items 0 5923.25 (-1)) (by
    intro i _
    split
    · exact hs _ (by norm_num) (by norm_num)
    · exact hs _ (by norm_num) (by norm_num)
    · exact hs _ (by norm_num) (by norm_num)) (fun _ => 7)
  have k := h3 [1] (List.Forall₂.cons (by norm_num) List.Forall₂.nil)
  simp only [sunDays] at k
  rw [if_pos (Or.inl (by norm_num))] at k
  exact ⟨lat, lon, A, O, e, h1, h2, k⟩

example : ∃ qlat qlon f11 f12 f21 f22 f m', evalQdlatlonBase (env id (fun _ : Unit => some twoEpochs) (fun _ => 7)) (fun _ => true) (fun _ => 40)
    (backwards 0 0 0) (backwards 0 20 30) (backwards 7000 7000 7000) (backwards (.fin 2000.25) (.fin 2000.75) (.fin 2000.25)) ()
    (Mod.init (fun _ => 3)) = .ok ([qlat, qlon, f11, f12, f21, f22, f], m') := by
  obtain ⟨A, O, F11, F12, F21, F22, FF, h1, -⟩ := C83_base_vectors_partial twoEpochs_env rfl (isFile := fun _ => true) rfl (bytes := fun _ => 40)
    (by norm_num) threePoints_arrays threePoints_usable
  obtain ⟨qlat, qlon, f11, f12, f21, f22, f, m', e, -⟩ := h1 (fun _ => 7) _ (Reachable.init (sngl := id) (fun _ => 3))
  exact ⟨qlat, qlon, f11, f12, f21, f22, f, m', e⟩

example : ∃ qlat qlon m', evalQdlatlon (env id (fun _ : Unit => some twoEpochs) (fun _ => 7)) (fun _ => true) (fun _ => 40)
    (backwards 0 0 0) (backwards 0 20 30) (backwards 7000 7000 7000) (backwards (.fin 2000.25) (.fin 2000.75) (.fin 2000.25)) ()
    (Mod.init (fun _ => 3)) = .ok ([qlat, qlon], m') := by
  obtain ⟨qlat, qlon, m', -, -, e, -⟩ := C83_pointwise_partial twoEpochs_env rfl (isFile := fun _ => true) rfl (bytes := fun _ => 40)
    (by norm_num) threePoints_arrays threePoints_usable (by
      intro i _
      unfold threePoints oneDay
      split <;> (simp only [id]; rw [abs_of_pos] <;> norm_num)) (by
      have h2 : oneDay < 1 / 2 := by unfold oneDay; norm_num
      have h3 : ∀ i, (threePoints i).time = 2000.25 ∨ (threePoints i).time = 2000.75 := by
        intro i; unfold threePoints; split <;> simp
      intro i j _ _
      simp only [id]
      rcases h3 i with a | a <;> rcases h3 j with b | b <;> rw [a, b]
      · simp
      · right; rw [abs_of_neg (by norm_num)]; norm_num at *; exact h2
      · right; rw [abs_of_pos (by norm_num)]; norm_num at *; exact h2
      · simp) (junk := fun _ => 7) (Reachable.init (sngl := id) (fun _ => 3))
  exact ⟨qlat, qlon, m', e⟩

example : ∃ mlt H, evalMltArr (mltEnv id fixedDipole) (fun _ => 7) (backwards 0 90 (-170)) (backwards 0 (1 / 2) 3000) = .ok mlt ∧
    ItemsOf mlt [3] H ∧ 0 ≤ H [1] ∧ H [1] < 24 := by
  have e1 : yearStart 1601 = -145731 := by decide
  have e2 : yearStart 2101 = 36890 := by decide
  obtain ⟨mlt, H, e, h, k⟩ := C83_local_time_partial id fixedDipole fixedDipole_ok _ _ _ (fixedDipole_extended (-30000))
    (fixedDipole_extended (-2000)) (fixedDipole_extended 5000) (by simp [fixedDipole]) (by simp) (by simp) (backwards_items 0 90 (-170))
    (backwards_items 0 (1 / 2) 3000)
    (by intro i _; split <;> norm_num [abs_le])
    (by intro i _; unfold Supported; rw [e1, e2]; split <;> norm_num)
    (by intro i _; unfold mltEpoch; split <;> simp [fixedDipole] <;> norm_num)
    (by intro p hp; norm_num) (fun _ => 7)
  obtain ⟨_, _, _, _, _, _, _, _, _, _, _, _, _, _, l⟩ := k [1] (List.Forall₂.cons (by norm_num) List.Forall₂.nil)
  exact ⟨mlt, H, e, h, l.1, l.2.1⟩

example : evalSubsolArr libm (fun _ => 7) (backwards 0 40000 (-1)) = .error .stopped := by
  have e0 : yearStart 1583 = -152306 := by decide
  have e2 : yearStart 2101 = 36890 := by decide
  refine C83_subsolar_stop (by simp) (by simp) (backwards_items 0 40000 (-1)) (i := [1]) (List.Forall₂.cons (by norm_num) List.Forall₂.nil) ?_ ?_ _
  · rw [e0]; norm_num
  · unfold Supported; rw [e2]; norm_num

end Verif.Props
