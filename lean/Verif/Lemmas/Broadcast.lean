/-
Broadcasting of arrays.
-/
import Verif.Model.VectorUtil
import Verif.Spec.Broadcast
import Verif.Lemmas.NdArray
import Verif.Lemmas.ElemApi
import Verif.Props.MioField

namespace Verif.VectorUtil

open Verif.Spec Verif.Arr Verif.MioField Verif.Buf

theorem dimAt_of_le {d : List Nat} {k : Nat} (h : d.length ≤ k) : dimAt d k = 1 := by
  unfold dimAt
  rw [List.getElem?_eq_none (by simpa using h)]
  rfl

theorem dimAt_get {d : List Nat} {j : Nat} (h : j < d.length) : dimAt d (d.length - 1 - j) = d[j] := by
  unfold dimAt
  rw [List.getElem?_reverse (by omega), show d.length - 1 - (d.length - 1 - j) = j by omega, List.getElem?_eq_getElem h]
  rfl

theorem padTo_length {A : Type} {n : Nat} (x : A) {l : List A} (h : l.length ≤ n) : (padTo n x l).length = n := by
  simp [padTo]; omega

theorem padTo_get {n : Nat} {a : List Nat} (h : a.length ≤ n) {j : Nat} (hj : j < n) :
    (padTo n 1 a)[j]? = some (dimAt a (n - 1 - j)) := by
  unfold padTo
  by_cases hc : j < n - a.length
  · rw [List.getElem?_append_left (by simpa using hc), dimAt_of_le (by omega)]
    simp [hc]
  · rw [List.getElem?_append_right (by simpa using Nat.le_of_not_lt hc)]
    simp only [List.length_replicate]
    have := dimAt_get (d := a) (j := j - (n - a.length)) (by omega)
    rw [show a.length - 1 - (j - (n - a.length)) = n - 1 - j by omega] at this
    rw [this, List.getElem?_eq_getElem]

theorem zip_get {a b : List Nat} {j : Nat} (hj : j < max a.length b.length) :
    (List.zip (padTo (max a.length b.length) 1 a) (padTo (max a.length b.length) 1 b))[j]? =
      some (dimAt a (max a.length b.length - 1 - j), dimAt b (max a.length b.length - 1 - j)) := by
  rw [List.getElem?_zip_eq_some]
  exact ⟨padTo_get (by omega) hj, padTo_get (by omega) hj⟩

theorem bcastDim_some {x y z : Nat} (h : bcastDim x y = some z) : (x = y ∨ x = 1 ∨ y = 1) ∧ z = if x = 1 then y else x := by
  unfold bcastDim at h
  split_ifs at h ⊢ <;> simp_all

theorem bcastDim_isSome {x y : Nat} (h : x = y ∨ x = 1 ∨ y = 1) : ∃ z, bcastDim x y = some z := by
  unfold bcastDim
  split_ifs <;> simp_all

theorem bcastDims_some {a b d : List Nat} (h : bcastDims a b = some d) : Broadcast a b d := by
  unfold bcastDims at h
  have hl := mapM_length h
  rw [List.length_zip, padTo_length _ (by omega), padTo_length _ (by omega), min_self] at hl
  have key : ∀ k < max a.length b.length, (dimAt a k = dimAt b k ∨ dimAt a k = 1 ∨ dimAt b k = 1) ∧
      dimAt d k = if dimAt a k = 1 then dimAt b k else dimAt a k := by
    intro k hk
    have hj : d.length - 1 - k < d.length := by omega
    have := mapM_get h (d.length - 1 - k)
    rw [zip_get (by omega), Option.bind_some, List.getElem?_eq_getElem hj, show max a.length b.length - 1 - (d.length - 1 - k) = k by omega,
      ← dimAt_get hj, show d.length - 1 - (d.length - 1 - k) = k by omega] at this
    exact bcastDim_some this
  refine ⟨fun k => ?_, hl, fun k => ?_⟩
  · by_cases hk : k < max a.length b.length
    · exact (key k hk).1
    · right; left; exact dimAt_of_le (by omega)
  · by_cases hk : k < max a.length b.length
    · exact (key k hk).2
    · rw [dimAt_of_le (d := d) (by omega), dimAt_of_le (d := a) (by omega), dimAt_of_le (d := b) (by omega)]
      rfl

theorem bcastDims_isSome {a b : List Nat} (h : Compatible a b) : ∃ d, bcastDims a b = some d := by
  refine mapM_isSome fun p hp => ?_
  obtain ⟨j, hj, e⟩ := List.getElem_of_mem hp
  have hj0 := hj
  rw [List.length_zip, padTo_length _ (by omega), padTo_length _ (by omega), min_self] at hj
  have := zip_get hj
  rw [List.getElem?_eq_getElem hj0, e] at this
  rw [Option.some.inj this]
  exact bcastDim_isSome (h _)

theorem dims_ext {a b : List Nat} (hl : a.length = b.length) (h : ∀ k, dimAt a k = dimAt b k) : a = b := by
  refine List.ext_getElem hl fun j h1 h2 => ?_
  rw [← dimAt_get h1, ← dimAt_get h2, h, hl]

theorem Broadcast.unique {a b d e : List Nat} (h : Broadcast a b d) (h' : Broadcast a b e) : d = e :=
  dims_ext (h.length.trans h'.length.symm) fun k => (h.dims k).trans (h'.dims k).symm

theorem Broadcast.eq {a b d : List Nat} (h : Broadcast a b d) : bcastDims a b = some d := by
  obtain ⟨e, he⟩ := bcastDims_isSome h.compatible
  rw [he, Broadcast.unique (bcastDims_some he) h]

theorem bcastDims_none {a b : List Nat} (h : ¬Compatible a b) : bcastDims a b = none := by
  cases hd : bcastDims a b with
  | none => rfl
  | some d => exact (h (bcastDims_some hd).compatible).elim

/-- `a` is repeated to the dimensions `d`. -/
def Repeats (a d : List Nat) : Prop := a.length ≤ d.length ∧ ∀ k, dimAt a k = dimAt d k ∨ dimAt a k = 1

theorem Broadcast.left {a b d : List Nat} (h : Broadcast a b d) : Repeats a d := by
  refine ⟨by rw [h.length]; omega, fun k => ?_⟩
  rw [h.dims]
  split_ifs with hc
  · exact .inr hc
  · exact .inl rfl

theorem Broadcast.right {a b d : List Nat} (h : Broadcast a b d) : Repeats b d := by
  refine ⟨by rw [h.length]; omega, fun k => ?_⟩
  rw [h.dims]
  have := h.compatible k
  split_ifs with hc
  · exact .inl rfl
  · rcases this with e | e | e
    · exact .inl e.symm
    · exact (hc e).elim
    · exact .inr e

theorem source_length {a idx : List Nat} (h : a.length ≤ idx.length) : (source a idx).length = a.length := by
  simp [source]; omega

theorem source_index {a d idx : List Nat} (h : Repeats a d) (hi : Index d idx) : Index a (source a idx) := by
  have hl := List.Forall₂.length_eq hi
  have hsl := source_length (a := a) (idx := idx) (by rw [hl]; exact h.1)
  refine List.forall₂_iff_get.mpr ⟨hsl, fun j h1 h2 => ?_⟩
  have h1' : idx.length - a.length + j < idx.length := by have := h.1; omega
  have hd : idx.length - a.length + j < d.length := by omega
  have key : (source a idx)[j] = if a[j] = 1 then 0 else idx[idx.length - a.length + j] := by
    simp [source]
  have hlt : idx[idx.length - a.length + j] < d[idx.length - a.length + j] := (List.forall₂_iff_get.mp hi).2 _ h1' hd
  have := h.2 (a.length - 1 - j)
  rw [dimAt_get h2, show a.length - 1 - j = d.length - 1 - (idx.length - a.length + j) by have := h.1; omega, dimAt_get hd] at this
  simp only [List.get_eq_getElem]
  rw [key]
  split_ifs with hc
  · omega
  · rcases this with e | e
    · omega
    · exact (hc e).elim

theorem sum_view : ∀ (a idx : List Nat) (s : List Int), a.length = s.length → a.length = idx.length →
    (List.zipWith (fun (i : Nat) (s : Int) => (i : Int) * s) idx
      (List.zipWith (fun (d : Nat) s => if d = 1 then 0 else s) a s)).sum =
    (List.zipWith (fun (i : Nat) (s : Int) => (i : Int) * s)
      (List.zipWith (fun n i => if n = 1 then 0 else i) a idx) s).sum
  | [], [], [], _, _ => rfl
  | n :: a, i :: idx, x :: s, h1, h2 => by
    simp only [List.zipWith_cons_cons, List.sum_cons]
    rw [sum_view a idx s (by simpa using h1) (by simpa using h2)]
    split_ifs <;> simp

theorem sum_pad : ∀ (n : Nat) (idx : List Nat) (s : List Int), idx.length = n + s.length →
    (List.zipWith (fun (i : Nat) (s : Int) => (i : Int) * s) idx (List.replicate n 0 ++ s)).sum =
    (List.zipWith (fun (i : Nat) (s : Int) => (i : Int) * s) (idx.drop n) s).sum
  | 0, idx, s, _ => by simp
  | n + 1, i :: idx, s, h => by
    simp only [List.replicate_succ, List.cons_append, List.zipWith_cons_cons, List.sum_cons, mul_zero, zero_add, List.drop_succ_cons]
    exact sum_pad n idx s (by simp at h; omega)
  | n + 1, [], s, h => by simp at h; omega

/-- The items of the array seen with other dimensions. -/
theorem view_items {A : Type} {a : NdArray A} {la d : List Nat} {S : List Nat → A} (ha : ItemsOf a la S) (h : Repeats la d) :
    ItemsOf (bcastView d a) d (fun idx => S (source la idx)) := by
  have hs : a.arr.stride.length = la.length := by rw [ha.ndim, ha.dim]
  refine ⟨rfl, ?_, fun idx hi => ?_⟩
  · unfold bcastView
    simp only [List.length_zipWith]
    rw [padTo_length _ (by rw [ha.dim]; exact h.1), padTo_length _ (by rw [hs]; exact h.1), min_self]
  · have hl := List.Forall₂.length_eq hi
    rw [← ha.get _ (source_index h hi)]
    unfold elem bcastView
    simp only
    congr 2
    have hle := h.1
    have e : List.zipWith (fun (d : Nat) (s : Int) => if d = 1 then 0 else s) (padTo d.length 1 a.arr.dim)
        (padTo d.length 0 a.arr.stride) =
        List.replicate (d.length - la.length) 0 ++ List.zipWith (fun (d : Nat) s => if d = 1 then 0 else s) la a.arr.stride := by
      unfold padTo
      rw [ha.dim, hs, List.zipWith_append (by simp)]
      simp
    rw [e, sum_pad _ _ _ (by simp [hs]; omega), sum_view _ _ _ hs.symm (by simp; omega)]
    unfold source
    rw [hl]

/-- An operation item by item. -/
theorem bcast_items {A B C : Type} (f : A → B → C) {a : NdArray A} {b : NdArray B} {la lb d : List Nat} {S : List Nat → A}
    {T : List Nat → B} (ha : ItemsOf a la S) (hb : ItemsOf b lb T) (h : Broadcast la lb d) :
    ∃ y, bcastNd f a b = .ok y ∧ ItemsOf y d (fun idx => f (S (source la idx)) (T (source lb idx))) := by
  refine ⟨newArray d ((indices d).map (fun idx => f (S (source la idx)) (T (source lb idx)))), ?_, items_new _⟩
  unfold bcastNd
  rw [ha.dim, hb.dim, Broadcast.eq h]
  simp only [orValueError, Props.except_ok_bind]
  rw [Props.nd_items (view_items ha (Broadcast.left h)), Props.nd_items (view_items hb (Broadcast.right h))]
  show Except.ok _ = _
  rw [List.zipWith_map, List.zipWith_self]

theorem bcast_error {A B C : Type} (f : A → B → C) {a : NdArray A} {b : NdArray B} (h : ¬Compatible a.arr.dim b.arr.dim) :
    bcastNd f a b = .error .valueError := by
  unfold bcastNd
  rw [bcastDims_none h]
  rfl

end Verif.VectorUtil
