/-
C88: the dipole frame and the magnetic universal time on arrays.
-/
import Verif.Props.VectorUtil
import Verif.Model.DipoleArrays

set_option linter.unusedSectionVars false

namespace Verif.Props

open Verif.Geo Verif.Spec Verif.Arr Verif.Buf Verif.MioField Verif.Field Verif.VectorUtil Verif.DipoleArrays Verif.FullEval
  Verif.ShPoint

/-! ### Broadcasting in several steps -/

theorem repeats_refl (a : List Nat) : Repeats a a := ⟨le_rfl, fun _ => .inl rfl⟩

theorem repeats_nil (a : List Nat) : Repeats [] a := ⟨Nat.zero_le _, fun k => .inr (by simp [dimAt])⟩

theorem repeats_trans {a b d : List Nat} (h : Repeats a b) (h' : Repeats b d) : Repeats a d := by
  refine ⟨h.1.trans h'.1, fun k => ?_⟩
  rcases h.2 k with e | e
  · rcases h'.2 k with e' | e'
    · exact .inl (e.trans e')
    · exact .inr (e.trans e')
  · exact .inr e

/-- An array which can be repeated to the dimensions of another one does not change them. -/
theorem broadcast_of_repeats {a b : List Nat} (h : Repeats b a) : Broadcast a b a := by
  refine ⟨fun k => ?_, by have := h.1; omega, fun k => ?_⟩
  · rcases h.2 k with e | e
    · exact .inl e.symm
    · exact .inr (.inr e)
  · split_ifs with hc
    · rcases h.2 k with e | e
      · exact e.symm
      · rw [hc, e]
    · rfl

theorem broadcast_of_repeats' {a b : List Nat} (h : Repeats a b) : Broadcast a b b := by
  refine ⟨fun k => ?_, by have := h.1; omega, fun k => ?_⟩
  · rcases h.2 k with e | e
    · exact .inl e
    · exact .inr (.inl e)
  · split_ifs with hc
    · rfl
    · exact ((h.2 k).resolve_right hc).symm

theorem source_get {a idx : List Nat} (h : a.length ≤ idx.length) {j : Nat} (hj : j < a.length) :
    (source a idx)[j]? = some (if a[j] = 1 then 0 else idx[idx.length - a.length + j]) := by
  have : j < (source a idx).length := by rw [source_length h]; exact hj
  rw [List.getElem?_eq_getElem this]
  simp [source]

/-- Repeating in two steps. -/
theorem source_source {a b d idx : List Nat} (h : Repeats a b) (h' : Repeats b d) (hi : Index d idx) :
    source a (source b idx) = source a idx := by
  have hl := index_length hi
  have h1 := h.1
  have h2 := h'.1
  have hb := source_length (a := b) (idx := idx) (by omega)
  refine List.ext_getElem? fun j => ?_
  by_cases hj : j < a.length
  · rw [source_get (by omega) hj, source_get (by omega) hj]
    congr 1
    split_ifs with hc
    · rfl
    · have hk : b.length - a.length + j < b.length := by omega
      have key := source_get (a := b) (idx := idx) (by omega) hk
      have ha : dimAt a (a.length - 1 - j) = a[j] := dimAt_get hj
      have hb' := dimAt_get hk
      rw [show b.length - 1 - (b.length - a.length + j) = a.length - 1 - j by omega] at hb'
      have hne : b[b.length - a.length + j] ≠ 1 := by
        intro e
        rcases h.2 (a.length - 1 - j) with e2 | e2
        · exact hc (by rw [← ha, e2, hb', e])
        · exact hc (by rw [← ha, e2])
      rw [if_neg hne] at key
      apply Option.some.inj
      rw [← List.getElem?_eq_getElem, ← List.getElem?_eq_getElem, hb, key, ← List.getElem?_eq_getElem]
      congr 1
      omega
  · rw [List.getElem?_eq_none (by rw [source_length (by omega)]; omega), List.getElem?_eq_none (by rw [source_length (by omega)]; omega)]

/-! ### Magnetic universal time -/

/-- The dimensions accepted for the sub-solar latitudes `r`, the longitudes combined having the dimensions `d1`: none, or those
to which the longitudes are repeated. -/
def InPlace (r d1 : List Nat) : Prop := r = [] ∨ Broadcast r d1 r

theorem except_error_bind {E A B : Type} (e : E) (f : A → Except E B) : (Except.error e >>= f) = .error e := (rfl)

theorem da_ok_bind {E A B : Type} (a : A) (f : A → Except E B) : ((Except.ok a : Except E A) >>= f) = f a := (rfl)

theorem mut_items {latN lonN latS lonS : NdArray ℝ} {p q r s d1 d2 d : List Nat} {A B C E : List Nat → ℝ}
    (hA : ItemsOf latN p A) (hB : ItemsOf lonN q B) (hC : ItemsOf latS r C) (hE : ItemsOf lonS s E)
    (h1 : Broadcast s q d1) (h2 : Broadcast p r d2) (h3 : Broadcast d2 d1 d) :
    (InPlace r d1 → ∃ y, mutNd libm latN lonN latS lonS = .ok y ∧ ItemsOf y d (fun idx =>
      magneticUniversalTime libm (A (source p idx)) (B (source q idx)) (C (source r idx)) (E (source s idx)))) ∧
    (¬InPlace r d1 → mutNd libm latN lonN latS lonS = .error .valueError) := by
  have r1 := Broadcast.left h1
  have r2 := Broadcast.right h1
  have r3 := Broadcast.left h2
  have r4 := Broadcast.right h2
  have r5 := Broadcast.left h3
  have r6 := Broadcast.right h3
  obtain ⟨latrS, a1, b1⟩ := nd_map (fun x => dg2rad libm * x) hC
  obtain ⟨latrN, a2, b2⟩ := nd_map (fun x => dg2rad libm * x) hA
  obtain ⟨dif, a3, b3⟩ := bcast_items (fun x y : ℝ => x - y) hE hB h1
  obtain ⟨dlon, a4, b4⟩ := nd_map (fun x => dg2rad libm * x) b3
  obtain ⟨ty, a5, b5⟩ := nd_map libm.cos b1
  obtain ⟨s1, a6, b6⟩ := nd_map libm.sin b2
  obtain ⟨s2, a7, b7⟩ := bcast_items (fun x y : ℝ => x * y) b6 b5 h2
  obtain ⟨c1, a8, b8⟩ := nd_map libm.cos b4
  obtain ⟨s3, a9, b9⟩ := bcast_items (fun x y : ℝ => x * y) b7 b8 h3
  obtain ⟨c2, a10, b10⟩ := nd_map libm.cos b2
  obtain ⟨e1, a11, b11⟩ := nd_map libm.sin b1
  obtain ⟨c3, a12, b12⟩ := bcast_items (fun x y : ℝ => x * y) b10 b11 h2
  obtain ⟨tx, a13, b13⟩ := bcast_items (fun x y : ℝ => x - y) b9 b12 (broadcast_of_repeats r5)
  obtain ⟨e2, a14, b14⟩ := nd_map libm.sin b4
  have hcomp : Compatible r d1 := by
    intro k
    have x1 := r4.2 k
    have x2 := h3.compatible k
    have x3 := h2.dims k
    have x4 := h2.compatible k
    rcases x1 with e | e
    · rcases x2 with f | f | f
      · exact .inl (e.trans f)
      · exact .inr (.inl (e.trans f))
      · exact .inr (.inr f)
    · exact .inr (.inl e)
  obtain ⟨d4, hd4⟩ := bcastDims_isSome hcomp
  have h4 := bcastDims_some hd4
  obtain ⟨ty2, a15, b15⟩ := bcast_items (fun x y : ℝ => x * y) b5 b14 h4
  have start : mutNd libm latN lonN latS lonS = (do
      let t ← timesInPlace ty e2
      let a ← bcastNd libm.atan2 t tx
      mapNd (fun x => 12 / libm.pi * (libm.pi - x)) a) := by
    unfold mutNd
    simp only [a1, a2, a3, a4, a5, a6, a7, a8, a9, a10, a11, a12, a13, a14, da_ok_bind]
  have hip : timesInPlace ty e2 = if r = [] ∨ d4 = r then .ok ty2 else .error .valueError := by
    unfold timesInPlace
    rw [a15, da_ok_bind, b15.dim, b5.dim]
    rfl
  have iff : InPlace r d1 ↔ r = [] ∨ d4 = r := by
    refine or_congr_right ⟨fun h => Broadcast.unique h4 h, fun h => ?_⟩
    rw [h] at h4
    exact h4
  constructor
  · intro h
    have r7 : Repeats d4 d := by
      rcases iff.mp h with h | h
      · have : d4 = d1 := by
          rw [h] at h4
          exact Broadcast.unique h4 (broadcast_of_repeats' (repeats_nil d1))
        rw [this]
        exact r6
      · rw [h]
        exact repeats_trans r4 r5
    obtain ⟨at2, a16, b16⟩ := bcast_items libm.atan2 b15 b13 (broadcast_of_repeats' r7)
    obtain ⟨y, a17, b17⟩ := nd_map (fun x => 12 / libm.pi * (libm.pi - x)) b16
    refine ⟨y, ?_, items_congr b17 fun idx hi => ?_⟩
    · rw [start, hip, if_pos (iff.mp h)]
      simp only [da_ok_bind, a16, a17]
    · have k0 := source_source (repeats_refl d) (repeats_refl d) hi
      have k1 := source_source r5 (repeats_refl d) hi
      have k2 := source_source r6 (repeats_refl d) hi
      have k3 := source_source r3 r5 hi
      have k4 := source_source r4 r5 hi
      have k5 := source_source r1 r6 hi
      have k6 := source_source r2 r6 hi
      have k7 := source_source (Broadcast.left h4) r7 hi
      have k8 := source_source (Broadcast.right h4) r7 hi
      simp only [k0, k1, k2, k3, k4, k5, k6, k7, k8, magneticUniversalTime]
  · intro h
    rw [start, hip, if_neg (fun h' => h (iff.mpr h'))]
    rfl

/-- The dimensions of the magnetic universal times: latitudes and longitudes of the pole have the dimensions `p` and `q`, those
of the Sun `r` and `s`. -/
structure MutDims (p q r s d : List Nat) : Prop where
  inner : ∃ d1 d2, Broadcast s q d1 ∧ Broadcast p r d2 ∧ Broadcast d2 d1 d ∧ InPlace r d1

/-- The magnetic universal time is the time since the passage of the Sun over the opposite meridian of the pole: from the dipole
longitude of the sub-solar point. -/
def IsMut (latN lonN latS lonS t : ℝ) : Prop :=
  0 ≤ t ∧ t < 24 ∧ ∀ R > 0, ∃ D, convertToDipole libm ⟨latS, lonS, R⟩ latN lonN 1 = some D ∧ t = (180 - D.y) / 15

theorem isMut_of (latN lonN latS lonS : ℝ) : IsMut latN lonN latS lonS (magneticUniversalTime libm latN lonN latS lonS) :=
  ⟨(C37_mut latN lonN latS lonS 1 one_pos).1, (C37_mut latN lonN latS lonS 1 one_pos).2.1, fun R hR =>
    (C37_mut latN lonN latS lonS R hR).2.2⟩

theorem mut_all (latN lonN latS lonS : NdArray ℝ) (p q r s : List Nat) (A B C E : List Nat → ℝ)
    (hA : ItemsOf latN p A) (hB : ItemsOf lonN q B) (hC : ItemsOf latS r C) (hE : ItemsOf lonS s E) :
    (∀ d, MutDims p q r s d → ∃ y M, mutNd libm latN lonN latS lonS = .ok y ∧
      ItemsOf y d M ∧ ∀ idx, Index d idx →
        IsMut (A (source p idx)) (B (source q idx)) (C (source r idx)) (E (source s idx)) (M idx)) ∧
    ((∀ d, ¬MutDims p q r s d) →
      mutNd libm latN lonN latS lonS = .error .valueError) := by
  constructor
  · rintro d ⟨d1, d2, h1, h2, h3, h4⟩
    obtain ⟨y, y1, y2⟩ := (mut_items hA hB hC hE h1 h2 h3).1 h4
    exact ⟨y, _, y1, y2, fun idx _ => isMut_of _ _ _ _⟩
  · intro h
    by_cases c1 : Compatible s q
    · obtain ⟨d1, e1⟩ := bcastDims_isSome c1
      have h1 := bcastDims_some e1
      by_cases c2 : Compatible p r
      · obtain ⟨d2, e2⟩ := bcastDims_isSome c2
        have h2 := bcastDims_some e2
        by_cases c3 : Compatible d2 d1
        · obtain ⟨d, e3⟩ := bcastDims_isSome c3
          have h3 := bcastDims_some e3
          exact (mut_items hA hB hC hE h1 h2 h3).2 fun h4 => h d ⟨d1, d2, h1, h2, h3, h4⟩
        · obtain ⟨latrS, a1, b1⟩ := nd_map (fun x => dg2rad libm * x) hC
          obtain ⟨latrN, a2, b2⟩ := nd_map (fun x => dg2rad libm * x) hA
          obtain ⟨dif, a3, b3⟩ := bcast_items (fun x y : ℝ => x - y) hE hB h1
          obtain ⟨dlon, a4, b4⟩ := nd_map (fun x => dg2rad libm * x) b3
          obtain ⟨ty, a5, b5⟩ := nd_map libm.cos b1
          obtain ⟨s1, a6, b6⟩ := nd_map libm.sin b2
          obtain ⟨s2, a7, b7⟩ := bcast_items (fun x y : ℝ => x * y) b6 b5 h2
          obtain ⟨c1, a8, b8⟩ := nd_map libm.cos b4
          have a9 := bcast_error (fun x y : ℝ => x * y) (a := s2) (b := c1) (by rw [b7.dim, b8.dim]; exact c3)
          unfold mutNd
          simp only [a1, a2, a3, a4, a5, a6, a7, a8, a9, da_ok_bind, except_error_bind]
      · obtain ⟨latrS, a1, b1⟩ := nd_map (fun x => dg2rad libm * x) hC
        obtain ⟨latrN, a2, b2⟩ := nd_map (fun x => dg2rad libm * x) hA
        obtain ⟨dif, a3, b3⟩ := bcast_items (fun x y : ℝ => x - y) hE hB h1
        obtain ⟨dlon, a4, b4⟩ := nd_map (fun x => dg2rad libm * x) b3
        obtain ⟨ty, a5, b5⟩ := nd_map libm.cos b1
        obtain ⟨s1, a6, b6⟩ := nd_map libm.sin b2
        have a7 := bcast_error (fun x y : ℝ => x * y) (a := s1) (b := ty) (by rw [b6.dim, b5.dim]; exact c2)
        unfold mutNd
        simp only [a1, a2, a3, a4, a5, a6, a7, da_ok_bind, except_error_bind]
    · obtain ⟨latrS, a1, b1⟩ := nd_map (fun x => dg2rad libm * x) hC
      obtain ⟨latrN, a2, b2⟩ := nd_map (fun x => dg2rad libm * x) hA
      have a3 := bcast_error (fun x y : ℝ => x - y) (a := lonS) (b := lonN) (by rw [hE.dim, hB.dim]; exact c1)
      unfold mutNd
      simp only [a1, a2, a3, da_ok_bind, except_error_bind]

theorem time_given (junk : Nat → List ℝ) (mjd latN lonN latS lonS : NdArray ℝ) :
    magneticTimeNd libm Real.tan junk mjd latN lonN (some latS) (some lonS) = mutNd libm latN lonN latS lonS := by
  simp only [magneticTimeNd]

/-- **C88**, the sub-solar points are given: the magnetic universal times; the dimensions accepted.  The times are not used. -/
theorem C88_time_partial (junk : Nat → List ℝ) (mjd latN lonN latS lonS : NdArray ℝ) (p q r s : List Nat) (A B C E : List Nat → ℝ)
    (hA : ItemsOf latN p A) (hB : ItemsOf lonN q B) (hC : ItemsOf latS r C) (hE : ItemsOf lonS s E) :
    (∀ d, MutDims p q r s d → ∃ y M, magneticTimeNd libm Real.tan junk mjd latN lonN (some latS) (some lonS) = .ok y ∧
      ItemsOf y d M ∧ ∀ idx, Index d idx →
        IsMut (A (source p idx)) (B (source q idx)) (C (source r idx)) (E (source s idx)) (M idx)) ∧
    ((∀ d, ¬MutDims p q r s d) →
      magneticTimeNd libm Real.tan junk mjd latN lonN (some latS) (some lonS) = .error .valueError) := by
  rw [time_given]
  exact mut_all latN lonN latS lonS p q r s A B C E hA hB hC hE

theorem subsol_items (junk : Nat → List ℝ) (hj : ∀ n, (junk n).length = n) {mjd : NdArray ℝ} {lt : List Nat} {τ : List Nat → ℝ}
    (ht : ItemsOf mjd lt τ) (hl : lt.length ≤ 15) :
    ∃ s, subsolNd libm Real.tan junk mjd = .ok s ∧ ItemsOf s.1 lt (fun idx => (sunOf (τ idx)).1) ∧
      ItemsOf s.2 lt (fun idx => -(sunOf (τ idx)).2) := by
  have z : ItemsOf (scalarNd (0 : ℝ)) [] (fun _ => 0) := items_new (dims := []) (fun _ => (0 : ℝ))
  obtain ⟨out, e1, e2, e3⟩ := C64_sunpos libm Real.tan junk hj _ _ _ _ _ lt [] [] [] [] τ _ _ _ _ ht z z z z
    lt ⟨by simp, by simp⟩ hl
  have en := pointsArr_ndim e1
  have key : ∀ idx, Index lt idx → idx.take lt.length = idx := by
    intro idx hi
    rw [← index_length hi, List.take_length]
  have i0 : ItemsOf (lastIndex out 0) lt (fun idx => (sunOf (τ idx)).1) := by
    refine nd_lastItem 0 e2 en fun idx hi => ?_
    have := (e3 idx hi).1
    rw [key idx hi] at this
    exact this
  have i2 : ItemsOf (lastIndex out 2) lt (fun idx => (sunOf (τ idx)).2) := by
    refine nd_lastItem 2 e2 en fun idx hi => ?_
    have := (e3 idx hi).2.2.1
    rw [key idx hi] at this
    exact this
  obtain ⟨lon, l1, l2⟩ := nd_map (fun h : ℝ => -h) i2
  refine ⟨(lastIndex out 0, lon), ?_, i0, l2⟩
  unfold subsolNd
  rw [e1]
  simp only [except_ok_bind, l1]
  rfl

/-- **C88**, a coordinate of the sub-solar points is not given: both are those of the Sun at the times. -/
theorem C88_sun_partial (junk : Nat → List ℝ) (hj : ∀ n, (junk n).length = n) (mjd latN lonN : NdArray ℝ)
    (latS lonS : Option (NdArray ℝ)) (hn : latS = none ∨ lonS = none) (lt p q : List Nat) (τ A B : List Nat → ℝ)
    (ht : ItemsOf mjd lt τ) (hA : ItemsOf latN p A) (hB : ItemsOf lonN q B) :
    (lt.length ≤ 15 → ∀ d, MutDims p q lt lt d → ∃ y M, magneticTimeNd libm Real.tan junk mjd latN lonN latS lonS = .ok y ∧
      ItemsOf y d M ∧ ∀ idx, Index d idx → IsMut (A (source p idx)) (B (source q idx)) (sunOf (τ (source lt idx))).1
        (-(sunOf (τ (source lt idx))).2) (M idx)) ∧
    (lt.length ≤ 15 → (∀ d, ¬MutDims p q lt lt d) →
      magneticTimeNd libm Real.tan junk mjd latN lonN latS lonS = .error .valueError) ∧
    (15 < lt.length → magneticTimeNd libm Real.tan junk mjd latN lonN latS lonS = .error .valueError) := by
  have e : magneticTimeNd libm Real.tan junk mjd latN lonN latS lonS = (do
      let s ← subsolNd libm Real.tan junk mjd
      mutNd libm latN lonN s.1 s.2) := by
    rcases hn with rfl | rfl
    · simp only [magneticTimeNd]
    · cases latS <;> simp only [magneticTimeNd]
  rw [e]
  refine ⟨fun hl => ?_, fun hl => ?_, fun hl => ?_⟩
  · obtain ⟨s, s1, s2, s3⟩ := subsol_items junk hj ht hl
    rw [s1, except_ok_bind]
    exact (mut_all latN lonN s.1 s.2 p q lt lt A B _ _ hA hB s2 s3).1
  · obtain ⟨s, s1, s2, s3⟩ := subsol_items junk hj ht hl
    rw [s1, except_ok_bind]
    exact (mut_all latN lonN s.1 s.2 p q lt lt A B _ _ hA hB s2 s3).2
  · have : sunposArr libm Real.tan junk mjd (scalarNd 0) (scalarNd 0) (scalarNd 0) (scalarNd 0) = .error .valueError := by
      refine (C64_sunpos_rejects libm Real.tan junk mjd (scalarNd 0) (scalarNd 0) (scalarNd 0) (scalarNd 0) (scalarNd 0)
        (scalarNd 0)).1 fun dims hd => ?_
      rw [ht.dim] at hd
      rcases hd.2 lt (by simp) with h | h
      · rw [h] at hl
        simp at hl
      · rw [← h]
        exact hl
    unfold subsolNd
    rw [this]
    rfl

theorem broadcast_one (n : Nat) : Broadcast [1] [n] [n] := by
  refine broadcast_of_repeats' ⟨by simp, fun k => ?_⟩
  match k with
  | 0 => exact .inr rfl
  | k + 1 => exact .inr (by simp [dimAt])

/-- **C88**, false of the code: the arguments follow the broadcasting of NumPy.  A product computed in place has the dimensions
of the sub-solar latitudes: one latitude in an array with several longitudes is refused, the same latitude as a number is
accepted; several pole longitudes for a time in an array are refused, several pole latitudes are accepted. -/
theorem C88_in_place (junk : Nat → List ℝ) (hj : ∀ n, (junk n).length = n) (mjd : NdArray ℝ) (a b c e t : ℝ) (n : Nat) (hn : n ≠ 1) :
    magneticTimeNd libm Real.tan junk mjd (scalarNd a) (scalarNd b) (some (newArray [1] ((indices [1]).map (fun _ => c))))
      (some (newArray [n] ((indices [n]).map (fun _ => e)))) = .error .valueError ∧
    (∃ y M, magneticTimeNd libm Real.tan junk mjd (scalarNd a) (scalarNd b) (some (scalarNd c))
      (some (newArray [n] ((indices [n]).map (fun _ => e)))) = .ok y ∧ ItemsOf y [n] M) ∧
    magneticTimeNd libm Real.tan junk (newArray [1] ((indices [1]).map (fun _ => t))) (scalarNd a)
      (newArray [n] ((indices [n]).map (fun _ => b))) none none = .error .valueError ∧
    ∃ y M, magneticTimeNd libm Real.tan junk (newArray [1] ((indices [1]).map (fun _ => t)))
      (newArray [n] ((indices [n]).map (fun _ => a))) (scalarNd b) none none = .ok y ∧ ItemsOf y [n] M := by
  have z : ∀ x : ℝ, ItemsOf (scalarNd x) [] (fun _ => x) := fun x => items_new (dims := []) (fun _ => x)
  have nil1 : ∀ l, Broadcast l [] l := fun l => broadcast_of_repeats (repeats_nil l)
  have nil2 : ∀ l, Broadcast [] l l := fun l => broadcast_of_repeats' (repeats_nil l)
  have no : ¬InPlace [1] [n] := by
    rintro (h | h)
    · simp at h
    · have := Broadcast.unique h (broadcast_one n)
      simp at this
      omega
  refine ⟨?_, ?_, ?_, ?_⟩
  · refine (C88_time_partial junk mjd _ _ _ _ [] [] [1] [n] _ _ _ _ (z a) (z b) (items_new _) (items_new _)).2 ?_
    rintro d ⟨d1, d2, h1, h2, h3, h4⟩
    rw [Broadcast.unique h1 (nil1 [n])] at h4
    exact no h4
  · obtain ⟨y, M, h1, h2, -⟩ := (C88_time_partial junk mjd _ _ _ _ [] [] [] [n] _ _ _ _ (z a) (z b) (z c) (items_new _)).1 [n]
      ⟨[n], [], nil1 _, nil1 _, nil2 _, .inl rfl⟩
    exact ⟨y, M, h1, h2⟩
  · refine (C88_sun_partial junk hj _ _ _ none none (.inl rfl) [1] [] [n] (fun _ => t) _ _ (items_new _) (z a) (items_new _)).2.1
      (by simp) ?_
    rintro d ⟨d1, d2, h1, h2, h3, h4⟩
    rw [Broadcast.unique h1 (broadcast_one n)] at h4
    exact no h4
  · obtain ⟨y, M, h1, h2, -⟩ := (C88_sun_partial junk hj _ _ _ none none (.inl rfl) [1] [n] [] (fun _ => t) _ _ (items_new _)
      (items_new (fun _ => a)) (z b)).1 (by simp) [n] ⟨[1], [n], nil1 _, broadcast_of_repeats (Broadcast.left (broadcast_one n)),
        broadcast_of_repeats (Broadcast.left (broadcast_one n)), .inr (broadcast_of_repeats (repeats_refl _))⟩
    · exact ⟨y, M, h1, h2⟩


/-! ### Positions and vectors in the frame of the dipole -/

/-- **C88**, `convert_to_dipole` of arrays: latitude, longitude and radius of each position in the rotated frame. -/
theorem C88_positions (junk : Nat → List ℝ) (hj : ∀ n, (junk n).length = n) (x : NdArray ℝ) (lead : List Nat)
    (hl : lead.length ≤ 15) (P : List Nat → V3 ℝ) (hx : VectorsOf x lead P) (latN lonN : ℝ) (i : CT) :
    ∃ m y D, ToDipoleFrame latN lonN m ∧ convertToDipoleNd libm junk x latN lonN (code i) = .ok y ∧ VectorsOf y lead D ∧
      ∀ idx, Index lead idx → ∀ c, convert libm (P idx) (code i) 2 = some c → 0 < inner3 c c →
        |(D idx).x| ≤ 90 ∧ 0 < (D idx).z ∧ convSphCart libm (D idx) = dot c m := by
  obtain ⟨y, h1, -, h2⟩ := nd_toDipole junk hj hl hx latN lonN i
  refine ⟨dipoleMatrix libm latN lonN, y, _, frame_ok latN lonN, h1, h2, fun idx hi c hc h0 => ?_⟩
  obtain ⟨D, e1, e2, e3, -, e5⟩ := C35_convert i (P idx) c latN lonN hc h0
  rw [toDipole_eq] at e1
  rw [Option.some.inj e1]
  exact ⟨e3, by rw [e2]; exact Real.sqrt_pos.mpr h0, e5⟩

/-- **C88**, `convert_to_dipole` refuses arrays which are not arrays of vectors. -/
theorem C88_positions_refused (junk : Nat → List ℝ) (x : NdArray ℝ) (latN lonN : ℝ) (i : CT)
    (h : x.arr.dim = [] ∨ 16 < x.arr.dim.length ∨ ∃ p n, x.arr.dim = p ++ [n] ∧ n ≠ 3) :
    convertToDipoleNd libm junk x latN lonN (code i) = .error .valueError := by
  unfold convertToDipoleNd convertNd
  rw [show (2 : Int) = code .cartesian from rfl, C49_convert_rejects junk x i .cartesian h]
  rfl

/-- Rotation of vectors with one angle for all or for each. -/
theorem da_rotate {A : Type} (f : V3 A → ℝ → ℝ → V3 A) (junk : Nat → List A) (hj : ∀ n, (junk n).length = n) {x : NdArray A}
    {a o : NdArray ℝ} {lead la lo : List Nat} (hl : lead.length ≤ 15) {P : List Nat → V3 A} {S T : List Nat → ℝ}
    (hx : VectorsOf x lead P) (ha : ScalarsOf a la S) (ho : ScalarsOf o lo T) :
    (AngleDims lead la ∧ AngleDims lead lo → ∃ data, vrot2Arr f junk x a o = .ok (lead ++ [3], data) ∧
      VectorsOf (newArray (lead ++ [3]) data) lead (fun idx => f (P idx) (S (idx.take la.length)) (T (idx.take lo.length)))) ∧
    (¬(AngleDims lead la ∧ AngleDims lead lo) → vrot2Arr f junk x a o = .error .valueError) := by
  refine ⟨fun h => ?_, (C49_vrot f junk hj x a o lead la lo hl P S T hx ha ho).2⟩
  obtain ⟨data, h1, -, h3⟩ := (C49_vrot f junk hj x a o lead la lo hl P S T hx ha ho).1 h.1 h.2
  exact ⟨data, h1, nd_vectors h3⟩

/-- **C88**, `vrot_from_dipole` of arrays to the Cartesian frame. -/
theorem C88_vectors_cartesian (junk : Nat → List ℝ) (hj : ∀ n, (junk n).length = n) (x latD lonD : NdArray ℝ) (lead la lo : List Nat)
    (hl : lead.length ≤ 15) (P : List Nat → V3 ℝ) (S T : List Nat → ℝ) (hx : VectorsOf x lead P) (ha : ItemsOf latD la S)
    (ho : ItemsOf lonD lo T) (latN lonN : ℝ) (out : Option (NdArray ℝ × NdArray ℝ)) :
    (AngleDims lead la ∧ AngleDims lead lo → ∃ m y W, ToDipoleFrame latN lonN m ∧
      vrotFromDipoleNd libm junk x latN lonN latD lonD out 2 = .ok y ∧ VectorsOf y lead W ∧
      ∀ idx, Index lead idx → dot (W idx) m = inSpace (S (idx.take la.length)) (T (idx.take lo.length)) (P idx)) ∧
    (¬(AngleDims lead la ∧ AngleDims lead lo) →
      vrotFromDipoleNd libm junk x latN lonN latD lonD out 2 = .error .valueError) := by
  obtain ⟨c1, c2⟩ := da_rotate (vrotSph2cart libm) junk hj hl hx (vu_scalars ha) (vu_scalars ho)
  constructor
  · intro h
    obtain ⟨data, a1, a2⟩ := c1 h
    obtain ⟨b, b1, -, b2⟩ := nd_dot a2 (dipoleMatrix libm latN lonN).transpose
    refine ⟨dipoleMatrix libm latN lonN, b, _, frame_ok latN lonN, ?_, b2, fun idx hi => ?_⟩
    · unfold vrotFromDipoleNd
      rw [a1]
      simp only [except_ok_bind, b1]
      rfl
    · rw [(dipole_inverse _ _ _).2, vu_sph2cart]
  · intro h
    unfold vrotFromDipoleNd
    rw [c2 h]
    rfl

/-- **C88**, `vrot_from_dipole` of arrays to geodetic or spherical components at the given positions. -/
theorem C88_vectors (junk : Nat → List ℝ) (hj : ∀ n, (junk n).length = n) (x latD lonD latO lonO : NdArray ℝ)
    (lead la lo lb lc : List Nat) (hl : lead.length ≤ 15) (P : List Nat → V3 ℝ) (S T A B : List Nat → ℝ) (hx : VectorsOf x lead P)
    (ha : ItemsOf latD la S) (ho : ItemsOf lonD lo T) (hb : ItemsOf latO lb A) (hc : ItemsOf lonO lc B) (latN lonN : ℝ) (o : CT)
    (hne : o ≠ .cartesian) :
    (AngleDims lead la ∧ AngleDims lead lo ∧ AngleDims lead lb ∧ AngleDims lead lc → ∃ m y W, ToDipoleFrame latN lonN m ∧
      vrotFromDipoleNd libm junk x latN lonN latD lonD (some (latO, lonO)) (code o) = .ok y ∧ VectorsOf y lead W ∧
      ∀ idx, Index lead idx → dot (inSpace (A (idx.take lb.length)) (B (idx.take lc.length)) (W idx)) m =
        inSpace (S (idx.take la.length)) (T (idx.take lo.length)) (P idx)) ∧
    (¬(AngleDims lead la ∧ AngleDims lead lo ∧ AngleDims lead lb ∧ AngleDims lead lc) →
      vrotFromDipoleNd libm junk x latN lonN latD lonD (some (latO, lonO)) (code o) = .error .valueError) := by
  obtain ⟨c1, c2⟩ := da_rotate (vrotSph2cart libm) junk hj hl hx (vu_scalars ha) (vu_scalars ho)
  have hc2 : code o ≠ 2 := by cases o <;> simp_all [code]
  by_cases h : AngleDims lead la ∧ AngleDims lead lo
  · obtain ⟨data, a1, a2⟩ := c1 h
    obtain ⟨b, b1, -, b2⟩ := nd_dot a2 (dipoleMatrix libm latN lonN).transpose
    obtain ⟨d1, d2⟩ := da_rotate (vrotCart2sph libm) junk hj hl b2 (vu_scalars hb) (vu_scalars hc)
    have e : vrotFromDipoleNd libm junk x latN lonN latD lonD (some (latO, lonO)) (code o) = (do
        let r ← vrot2Arr (vrotCart2sph libm) junk b latO lonO
        return newArray r.1 r.2) := by
      unfold vrotFromDipoleNd
      rw [a1]
      simp only [except_ok_bind, b1, if_neg hc2, orValueError]
    rw [e]
    constructor
    · rintro ⟨-, -, h3, h4⟩
      obtain ⟨data', f1, f2⟩ := d1 ⟨h3, h4⟩
      refine ⟨dipoleMatrix libm latN lonN, _, _, frame_ok latN lonN, ?_, f2, fun idx hi => ?_⟩
      · rw [f1]
        rfl
      · rw [vu_cart2sph, (dipole_inverse _ _ _).2, vu_sph2cart]
    · intro h'
      rw [d2 (fun h'' => h' ⟨h.1, h.2, h''.1, h''.2⟩)]
      rfl
  · refine ⟨fun h' => (h ⟨h'.1, h'.2.1⟩).elim, fun _ => ?_⟩
    unfold vrotFromDipoleNd
    rw [c2 h]
    rfl

/-! ### Evaluation in the frame of the dipole -/

/-- `sheval_dipole` with the evaluation of Model/FullEval.lean. -/
noncomputable def shevalDipoleArr (fl : Nat → Int) (alloc : Nat → Mem ℝ) (junk : Nat → List ℝ) (x coef : NdArray ℝ) (latN lonN : ℝ)
    (ctIn ctOut mode : Int) (int : Bool) (degree : Int) (sp : ℝ) (sg : Scale ℝ) : Except Err (Result ℝ) :=
  shevalDipoleNd libm fl (fun c m s v rows => modelEvalR c m s v rows) (fun N => init (alloc N)) junk x coef latN lonN ctIn ctOut
    mode int degree sp sg

theorem dipoleArr_eq (fl : Nat → Int) (alloc : Nat → Mem ℝ) (junk : Nat → List ℝ) (x coef : NdArray ℝ) (latN lonN : ℝ)
    (ctIn ctOut mode : Int) (int : Bool) (degree : Int) (sp : ℝ) (sg : Scale ℝ) :
    shevalDipoleArr fl alloc junk x coef latN lonN ctIn ctOut mode int degree sp sg = (do
      let d ← convertToDipoleNd libm junk x latN lonN ctIn
      let r ← shevalArr fl alloc junk d coef 1 1 mode int degree sp .default
      if mode = 2 then
        let g ← orMemory r.grd
        let v ← rotateVectorsFromDipoleNd libm junk (newArray (r.shape ++ [3]) g) latN lonN d x ctIn ctOut
        let s ← scaleNd sg v
        return ⟨r.shape, none, some s⟩
      else if mode = 1 then
        return r
      else
        let g ← orMemory r.grd
        let v ← rotateVectorsFromDipoleNd libm junk (newArray (r.shape ++ [3]) g) latN lonN d x ctIn ctOut
        let s ← scaleNd sg v
        return ⟨r.shape, r.pot, some s⟩) := rfl

/-- `rotate_vectors_from_dipole` of arrays, the positions having the dimensions `lx`. -/
theorem da_fromDipole (junk : Nat → List ℝ) (hj : ∀ n, (junk n).length = n) {u d x : NdArray ℝ} {lead lx : List Nat}
    (hl : lead.length ≤ 15) (hlx : lx.length ≤ 15) {U D P : List Nat → V3 ℝ} (hu : VectorsOf u lead U) (hd : VectorsOf d lx D)
    (hx : VectorsOf x lx P) (latN lonN : ℝ) (i o : CT) :
    (AngleDims lead lx → ∃ y W, rotateVectorsFromDipoleNd libm junk u latN lonN d x (code i) (code o) = .ok y ∧ VectorsOf y lead W ∧
      ∀ idx, rotateVectorsFromDipole libm (U idx) latN lonN (D (idx.take lx.length)) (P (idx.take lx.length)) (code i) (code o) =
        some (W idx)) ∧
    (¬AngleDims lead lx → rotateVectorsFromDipoleNd libm junk u latN lonN d x (code i) (code o) = .error .valueError) := by
  obtain ⟨c1, c2⟩ := da_rotate (vrotSph2cart libm) junk hj hl hu (nd_last hd 0) (nd_last hd 1)
  have hc2 : code .cartesian = 2 := rfl
  have k0 : ((0 : Fin 3) : Nat) = 0 := rfl
  have k1 : ((1 : Fin 3) : Nat) = 1 := rfl
  rw [k0, k1] at c1 c2
  constructor
  · intro h
    obtain ⟨data, a1, a2⟩ := c1 ⟨h, h⟩
    obtain ⟨b, b1, -, b2⟩ := nd_dot a2 (dipoleMatrix libm latN lonN).transpose
    by_cases ho : o = .cartesian
    · subst ho
      refine ⟨b, _, ?_, b2, fun idx => rfl⟩
      unfold rotateVectorsFromDipoleNd
      rw [if_pos hc2]
      unfold vrotFromDipoleNd
      simp only [a1, da_ok_bind, b1, if_pos hc2]
      rfl
    · obtain ⟨c, e1, e2⟩ := nd_convert junk hj hlx hx i o
      obtain ⟨data', f1, f2⟩ := (da_rotate (vrotCart2sph libm) junk hj hl b2 (nd_last e2 0) (nd_last e2 1)).1 ⟨h, h⟩
      rw [k0, k1] at f1
      have hne : code o ≠ 2 := by cases o <;> simp_all [code]
      refine ⟨newArray (lead ++ [3]) data', _, ?_, f2, fun idx => ?_⟩
      · unfold rotateVectorsFromDipoleNd
        rw [if_neg hne]
        simp only [e1, da_ok_bind]
        unfold vrotFromDipoleNd
        simp only [a1, da_ok_bind, b1, if_neg hne, orValueError, f1]
        rfl
      · unfold rotateVectorsFromDipole
        rw [if_neg hne, convert_code]
        simp only [Option.bind_eq_bind, Option.bind_some]
        unfold vrotFromDipole
        rw [if_neg hne]
        rfl
  · intro h
    have c2 := c2 (fun h' => h h'.1)
    have v : ∀ out ct, vrotFromDipoleNd libm junk u latN lonN (lastIndex d 0) (lastIndex d 1) out ct = .error .valueError := by
      intro out ct
      unfold vrotFromDipoleNd
      rw [c2]
      rfl
    unfold rotateVectorsFromDipoleNd
    by_cases ho : o = .cartesian
    · subst ho
      rw [if_pos hc2, v]
    · obtain ⟨c, e1, e2⟩ := nd_convert junk hj hlx hx i o
      have hne : code o ≠ 2 := by cases o <;> simp_all [code]
      rw [if_neg hne]
      simp only [e1, da_ok_bind, v]

theorem da_scale {y : NdArray ℝ} {lead : List Nat} {W : List Nat → V3 ℝ} (hy : VectorsOf y lead W) {sg : Scale ℝ} {g : V3 ℝ}
    (hg : BroadScaleOf sg g) : scaleNd sg y = .ok ((indices lead).map (fun idx => xyz (scaledBy (W idx) g))).flatten := by
  unfold scaleNd
  have hn : y.arr.dim.getLastD 0 = 3 := by rw [hy.dim]; simp
  have hs : checkScale sg 3 = .ok () := by
    rcases hg with (⟨h, -⟩ | ⟨s, h, -⟩ | ⟨x, y, z, h, -⟩) | ⟨s, h, -⟩ <;> rw [h] <;> rfl
  simp only [hn]
  rw [reads_points hy]
  simp only [orMemory, da_ok_bind]
  rw [hs]
  have hr := nd_rows hy
  rw [hn] at hr
  rw [hr, nd_mapM (f := scaleRow sg) (g := fun idx => xyz (W idx)) (h := fun idx => xyz (scaledBy (W idx) g))
    (indices lead) (fun idx _ => scaleRow_of hg _)]
  rfl

/-- One point evaluated by itself. -/
theorem dipole_single {int : Bool} {N : Nat} {i o : CT} {mode : Nat} (hm : mode = 1 ∨ mode = 2 ∨ mode = 3) {sp : ℝ} {g : V3 ℝ}
    {latN lonN : ℝ} {b : Mem ℝ} {v d : V3 ℝ} {c : List (ℝ × ℝ)} {u : FullEval.Out ℝ}
    (hd : convertToDipole libm v latN lonN (code i) = some d)
    (hu : shevalR int N .spherical .spherical mode sp ⟨1, 1, 1⟩ b [(d, c)] = some [u]) :
    (mode = 1 → dipoleR int N i o mode sp g latN lonN b [(v, c)] = some [u]) ∧
    (mode ≠ 1 → ∀ a w, u.2 = some a → rotateVectorsFromDipole libm a latN lonN d v (code i) (code o) = some w →
      dipoleR int N i o mode sp g latN lonN b [(v, c)] = some [(u.1, some (scaledBy w g))]) := by
  have hu' : batch libm nearPole (10 ^ 280) (config int N .spherical .spherical sp ⟨1, 1, 1⟩) mode (init b) [(d, c)] = some [u] := hu
  constructor
  · rintro rfl
    unfold dipoleR DipoleEval.shevalDipole
    simp [hd, hu']
  · intro h1 a w ha hw
    unfold dipoleR DipoleEval.shevalDipole
    simp only [List.mapM_cons, List.mapM_nil, hd, Option.bind_eq_bind, Option.bind_some, Option.pure_def, if_pos hm, List.zip_cons_cons,
      List.zip_nil_right, List.map_cons, List.map_nil, hu', if_neg h1]
    simp [DipoleEval.rotateAll, ha, hw, scaledBy]

/-- **C88**, `sheval_dipole` of arrays: the dimensions of the results are those of `sheval`, each point with its coefficients is
evaluated as by itself (C68).  Missing of the full claim (false of the code, `C88_coefficients_refused`): gradients for several
sets of coefficients of each position of an array. -/
theorem C88_eval_partial (fl : Nat → Int) (hf : SqrtDegree fl) (alloc : Nat → Mem ℝ)
    (ha : ∀ N, MemOk (alloc N) N) (junk : Nat → List ℝ) (hj : ∀ n, (junk n).length = n)
    (x coef : NdArray ℝ) (lx lc lead : List Nat) (n : Nat) (X : List Nat → V3 ℝ)
    (C : List Nat → List (ℝ × ℝ)) (hx : VectorsOf x lx X) (hc : PairsOf coef lc n C) (hm : Match lx lc lead) (hl : lead.length ≤ 15)
    (i o : CT) (mode : Nat) (hmode : mode = 1 ∨ mode = 2 ∨ mode = 3) (int : Bool) (degree : Int) (N : Nat) (hn : 1 ≤ n)
    (hn2 : n < 2 ^ 45) (hN : 1 ≤ N) (hd : UsedDegree n degree N) (sp : ℝ) (sg : Scale ℝ) (g : V3 ℝ)
    (hg : BroadScaleOf sg g) (latN lonN : ℝ) :
    (mode = 1 ∨ AngleDims lead lx →
      ∃ r, shevalDipoleArr fl alloc junk x coef latN lonN (code i) (code o) mode int degree sp sg = .ok r ∧
      r.shape = lead ∧ (∀ p, r.pot = some p → p.length = lead.prod) ∧ (∀ p, r.grd = some p → p.length = (lead ++ [3]).prod) ∧
      (r.pot.isSome = true ↔ mode = 1 ∨ mode = 3) ∧ (r.grd.isSome = true ↔ mode = 2 ∨ mode = 3) ∧
      ∀ idx, Index lead idx → ∃ u, dipoleR int N i o mode sp g latN lonN (alloc N)
          [(X (idx.take lx.length), C (idx.take lc.length))] = some [u] ∧
        r.pot.bind (fun p => p[rank lead idx]?) = u.1 ∧
        ∀ k : Fin 3, r.grd.bind (fun p => p[rank (lead ++ [3]) (idx ++ [k.val])]?) = u.2.map (fun v => comp v k)) ∧
    (mode ≠ 1 → ¬AngleDims lead lx →
      shevalDipoleArr fl alloc junk x coef latN lonN (code i) (code o) mode int degree sp sg = .error .valueError) := by
  have hlx : lx.length ≤ 15 := hm.1.length_le.trans hl
  obtain ⟨d, d1, d2, d3⟩ := nd_toDipole junk hj hlx hx latN lonN i
  obtain ⟨r, r1, r2, r3, r4, r5, r6, r7⟩ := C49_sheval_partial fl hf alloc ha junk hj d coef lx lc lead n _ C d3 d2 hc hm .spherical
    .spherical mode hmode int degree N hn hn2 hN hd sp .default ⟨1, 1, 1⟩ (.inl ⟨rfl, rfl⟩)
  have r1 : shevalArr fl alloc junk d coef 1 1 mode int degree sp .default = .ok r := r1
  rw [dipoleArr_eq, d1, da_ok_bind, r1, da_ok_bind]
  have single := fun (idx : List Nat) (u : FullEval.Out ℝ) (hu : shevalR int N .spherical .spherical mode sp ⟨1, 1, 1⟩ (alloc N)
      [(convCartSph libm (dot (getFconv libm i .cartesian (X (idx.take lx.length))) (dipoleMatrix libm latN lonN)),
        C (idx.take lc.length))] = some [u]) =>
    dipole_single (o := o) (g := g) hmode (toDipole_eq latN lonN i (X (idx.take lx.length))) hu
  by_cases h1 : mode = 1
  · subst h1
    refine ⟨fun _ => ⟨r, rfl, r2, r3, r4, r5, r6, fun idx hi => ?_⟩, fun h => (h rfl).elim⟩
    obtain ⟨u, u1, u2, u3⟩ := r7 idx hi
    exact ⟨u, (single idx u u1).1 rfl, u2, u3⟩
  obtain ⟨p, hp⟩ : ∃ p, r.grd = some p := Option.isSome_iff_exists.mp (r6.mpr (by omega))
  set U : List Nat → V3 ℝ := fun idx => ⟨(p[rank (lead ++ [3]) (idx ++ [0])]?).getD 0,
    (p[rank (lead ++ [3]) (idx ++ [1])]?).getD 0, (p[rank (lead ++ [3]) (idx ++ [2])]?).getD 0⟩ with hU
  have key : ∀ idx, Index lead idx → ∃ u, shevalR int N .spherical .spherical mode sp ⟨1, 1, 1⟩ (alloc N)
      [(convCartSph libm (dot (getFconv libm i .cartesian (X (idx.take lx.length))) (dipoleMatrix libm latN lonN)),
        C (idx.take lc.length))] = some [u] ∧ r.pot.bind (fun p => p[rank lead idx]?) = u.1 ∧ u.2 = some (U idx) ∧
        ∀ k : Fin 3, p[rank (lead ++ [3]) (idx ++ [k.val])]? = some (comp (U idx) k) := by
    intro idx hi
    obtain ⟨u, u1, u2, u3⟩ := r7 idx hi
    rw [hp] at u3
    simp only [Option.bind_some] at u3
    obtain ⟨w, hw⟩ : ∃ w, u.2 = some w := by
      cases h : u.2 with
      | some w => exact ⟨w, rfl⟩
      | none =>
        have := u3 0
        rw [h, Option.map_none, List.getElem?_eq_none_iff] at this
        have hik : Index (lead ++ [3]) (idx ++ [((0 : Fin 3) : Nat)]) := List.rel_append hi (.cons (by simp) .nil)
        have h2 := rank_lt hik
        rw [r4 p hp] at this
        omega
    rw [hw] at u3
    have b0 : p[rank (lead ++ [3]) (idx ++ [0])]? = some w.x := u3 0
    have b1 : p[rank (lead ++ [3]) (idx ++ [1])]? = some w.y := u3 1
    have b2 : p[rank (lead ++ [3]) (idx ++ [2])]? = some w.z := u3 2
    have e : U idx = w := by simp only [hU, b0, b1, b2, Option.getD_some]
    rw [e]
    exact ⟨u, u1, u2, hw, u3⟩
  have hu : VectorsOf (newArray (lead ++ [3]) p) lead U := nd_vectors fun idx hi => by
    obtain ⟨u, -, -, -, h⟩ := key idx hi
    exact h
  obtain ⟨f1, f2⟩ := da_fromDipole junk hj hl hlx hu d3 hx latN lonN i o
  have hmem : orMemory r.grd = .ok p := by rw [hp]; rfl
  rw [hmem, r2, da_ok_bind]
  constructor
  · intro h
    obtain ⟨y, W, y1, y2, y3⟩ := f1 (h.resolve_left h1)
    have hsc := da_scale y2 hg
    set q := ((indices lead).map (fun idx => xyz (scaledBy (W idx) g))).flatten with hq
    refine ⟨⟨lead, if mode = 2 then none else r.pot, some q⟩, ?_, rfl, ?_, ?_, ?_, ?_, fun idx hi => ?_⟩
    · rcases hmode with rfl | rfl | rfl
      · exact (h1 rfl).elim
      · rw [if_pos (by decide), if_pos rfl, y1, da_ok_bind, hsc, da_ok_bind]
        rfl
      · rw [if_neg (by decide), if_neg (by decide), if_neg (by decide), da_ok_bind, y1, da_ok_bind, hsc, da_ok_bind]
        rfl
    · intro p' hp'
      by_cases h2 : mode = 2
      · simp [h2] at hp'
      · rw [if_neg h2] at hp'
        exact r3 p' hp'
    · intro p' hp'
      rw [← Option.some.inj hp', hq, flatten_length 3 _ (by
        intro b hb
        obtain ⟨x, -, rfl⟩ := List.mem_map.mp hb
        rfl), List.length_map, indices_length]
      simp
    · by_cases h2 : mode = 2
      · simp [h2]
      · rw [if_neg h2]
        exact r5
    · simp only [Option.isSome_some, true_iff]
      omega
    · obtain ⟨u, u1, u2, u3, -⟩ := key idx hi
      refine ⟨_, (single idx u u1).2 h1 (U idx) (W idx) u3 (y3 idx), ?_, fun k => ?_⟩
      · by_cases h2 : mode = 2
        · have : r.pot = none := by
            rw [← Option.not_isSome_iff_eq_none, r5]
            omega
          rw [if_pos h2, ← u2, this]
        · rw [if_neg h2]
          exact u2
      · exact nd_flat lead _ idx hi k
  · intro _ h
    rcases hmode with rfl | rfl | rfl
    · exact (h1 rfl).elim
    · rw [if_pos (by decide), f2 h, except_error_bind]
    · rw [if_neg (by decide), if_neg (by decide), da_ok_bind, f2 h, except_error_bind]

/-- **C88**, false of the code: `sheval_dipole` accepts the arrays accepted by `sheval`.  Several sets of coefficients for each
of the positions of an array are accepted by `sheval`, and by `sheval_dipole` for the potential alone; with the gradient they
are refused. -/
theorem C88_coefficients_refused (fl : Nat → Int) (hf : SqrtDegree fl) (alloc : Nat → Mem ℝ)
    (ha : ∀ N, MemOk (alloc N) N) (junk : Nat → List ℝ) (hj : ∀ n, (junk n).length = n)
    (x coef : NdArray ℝ) (m k n : Nat) (X : List Nat → V3 ℝ) (C : List Nat → List (ℝ × ℝ)) (hx : VectorsOf x [m] X)
    (h1 : x.arr.stride.getLast? = some 1) (hc : PairsOf coef [m, k] n C) (i o : CT) (mode : Nat) (hmode : mode = 2 ∨ mode = 3)
    (int : Bool) (degree : Int) (N : Nat) (hn : 1 ≤ n) (hn2 : n < 2 ^ 45) (hN : 1 ≤ N) (hd : UsedDegree n degree N) (sp latN lonN : ℝ) :
    shevalDipoleArr fl alloc junk x coef latN lonN (code i) (code o) mode int degree sp .default = .error .valueError ∧
    (∃ r, shevalDipoleArr fl alloc junk x coef latN lonN (code i) (code o) 1 int degree sp .default = .ok r ∧ r.shape = [m, k]) ∧
    ∃ r, shevalArr fl alloc junk x coef (code i) (code o) mode int degree sp .default = .ok r ∧ r.shape = [m, k] := by
  have hm : Match [m] [m, k] [m, k] := ⟨⟨[k], rfl⟩, List.prefix_rfl, .inr rfl⟩
  have hg : ScaleOf (.default : Scale ℝ) ⟨1, 1, 1⟩ := .inl ⟨rfl, rfl⟩
  refine ⟨?_, ?_, ?_⟩
  · exact (C88_eval_partial fl hf alloc ha junk hj x coef _ _ _ n X C hx hc hm (by simp) i o mode (.inr hmode) int degree N hn hn2 hN hd
      sp .default _ (.inl hg) latN lonN).2 (by omega) (by simp [AngleDims])
  · obtain ⟨r, r1, r2, -⟩ := (C88_eval_partial fl hf alloc ha junk hj x coef _ _ _ n X C hx hc hm (by simp) i o 1 (.inl rfl) int degree N
      hn hn2 hN hd sp .default _ (.inl hg) latN lonN).1 (.inl rfl)
    exact ⟨r, r1, r2⟩
  · obtain ⟨r, r1, r2, -⟩ := C49_sheval_partial fl hf alloc ha junk hj x coef _ _ _ n X C hx h1 hc hm i o mode (.inr hmode) int degree N
      hn hn2 hN hd sp .default _ hg
    exact ⟨r, r1, r2⟩

/-- Two positions of the pole, three sub-solar longitudes at one latitude. -/
example (junk : Nat → List ℝ) (mjd : NdArray ℝ) : ∃ y M,
    magneticTimeNd libm Real.tan junk mjd (newArray [2, 1] ((indices [2, 1]).map (fun idx => 80 + (idx.headD 0 : ℕ) : List Nat → ℝ)))
      (scalarNd (-72)) (some (scalarNd 10)) (some (newArray [3] ((indices [3]).map (fun idx => 15 * (idx.headD 0 : ℕ) : List Nat → ℝ)))) = .ok y ∧
    ItemsOf y [2, 3] M ∧ IsMut 81 (-72) 10 30 (M [1, 2]) := by
  have z : ∀ x : ℝ, ItemsOf (scalarNd x) [] (fun _ => x) := fun x => items_new (dims := []) (fun _ => x)
  have h : MutDims [2, 1] [] [] [3] [2, 3] := by
    refine ⟨[3], [2, 1], broadcast_of_repeats (repeats_nil _), broadcast_of_repeats (repeats_nil _), ?_, .inl rfl⟩
    exact bcastDims_some (by decide)
  obtain ⟨y, M, y1, y2, y3⟩ := (C88_time_partial junk mjd _ _ _ _ _ _ _ _ _ _ _ _ (items_new (dims := [2, 1])
    (fun idx => 80 + (idx.headD 0 : ℕ) : List Nat → ℝ)) (z (-72)) (z 10)
    (items_new (dims := [3]) (fun idx => 15 * (idx.headD 0 : ℕ) : List Nat → ℝ))).1 _ h
  have hi := y3 [1, 2] (.cons (by omega) (.cons (by omega) .nil))
  have e1 : (80 + (((source [2, 1] [1, 2]).headD 0 : ℕ) : ℝ)) = 81 := by
    rw [show (source [2, 1] [1, 2]).headD 0 = 1 from by decide]
    norm_num
  have e2 : (15 * (((source [3] [1, 2]).headD 0 : ℕ) : ℝ)) = 30 := by
    rw [show (source [3] [1, 2]).headD 0 = 2 from by decide]
    norm_num
  simp only [e1, e2] at hi
  exact ⟨y, M, y1, y2, hi⟩

/-- Two vectors at one position of the dipole frame, to the spherical components at one position. -/
example (junk : Nat → List ℝ) (hj : ∀ n, (junk n).length = n) : ∃ y W,
    vrotFromDipoleNd libm junk (newArray [2, 3] ((indices [2, 3]).map (fun _ => (1 : ℝ)))) 80 (-72) (scalarNd 10) (scalarNd 20)
      (some (scalarNd 30, scalarNd 40)) 1 = .ok y ∧ VectorsOf y [2] W := by
  have z : ∀ x : ℝ, ItemsOf (scalarNd x) [] (fun _ => x) := fun x => items_new (dims := []) (fun _ => x)
  have hx : VectorsOf (newArray [2, 3] ((indices [2, 3]).map (fun _ => (1 : ℝ)))) [2] (fun _ => ⟨1, 1, 1⟩) := by
    obtain ⟨h1, h2, h3⟩ := items_new (dims := [2, 3]) (fun _ => (1 : ℝ))
    refine ⟨h1, h2, fun idx hi => ?_⟩
    have := fun j (hj : j < 3) => h3 (idx ++ [j]) (List.rel_append hi (.cons hj .nil))
    exact ⟨this 0 (by omega), this 1 (by omega), this 2 (by omega)⟩
  obtain ⟨m, y, W, -, y1, y2, -⟩ := (C88_vectors junk hj _ _ _ _ _ [2] _ _ _ _ (by simp) _ _ _ _ _ hx (z 10) (z 20) (z 30) (z 40) 80 (-72)
    .spherical (by simp)).1 ⟨.inl rfl, .inl rfl, .inl rfl, .inl rfl⟩
  exact ⟨y, W, y1, y2⟩

/-- The hypotheses of the theorems on `sheval_dipole`: two positions in one array, one set of coefficients for all of them. -/
example : VectorsOf ⟨cells [1, 2, 3, 4, 5, 6], ⟨0, [2, 3], [3, 1]⟩⟩ [2]
      (fun idx => if idx = [0] then ⟨1, 2, 3⟩ else ⟨4, 5, 6⟩) ∧ Match [2] [] [2] ∧ AngleDims [2] [2] ∧
    BroadScaleOf (.vector [2]) ⟨2, 2, 2⟩ := by
  refine ⟨⟨rfl, rfl, ?_⟩, ⟨List.prefix_rfl, List.nil_prefix, .inl rfl⟩, .inr rfl, .inr ⟨2, rfl, rfl⟩⟩
  intro idx h
  cases h with
  | cons h1 h2 =>
    cases h2
    rename_i a
    have : a = 0 ∨ a = 1 := by omega
    rcases this with rfl | rfl <;> simp [elem, cells]

end Verif.Props
