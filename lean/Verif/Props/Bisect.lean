/-
C01 - interval search brackets every point.
-/
import Verif.Lemmas.Bisect
import Mathlib.Data.List.Count
import Mathlib.Data.Int.Order.Basic

namespace Verif.Props

open Verif.Bisect

variable {α : Type*} [LinearOrder α]

/-- C01 (right side): on ascending nodes and for a number `a` the search ends,
reads only existing nodes and returns the index of the last node which is not
above `a` (`-1` if there is none). -/
theorem C01_bisect_right (v : List α) (hs : v.Pairwise (· ≤ ·)) (a : α) :
    ∃ i : Int, bisectRight (some a) v = some i ∧ -1 ≤ i ∧ i < v.length ∧
      ∀ (j : Nat) (hj : j < v.length), v[j] ≤ a ↔ (j : Int) ≤ i := by
  obtain ⟨i, h1, h2, h3, h4⟩ := bisectRight_full (some a) v hs
  refine ⟨i, h1, h2, h3, fun j hj => ?_⟩
  rw [← h4 j hj]; simp [cge]

/-- C01 (left side): index of the last node strictly below `a`. -/
theorem C01_bisect_left (v : List α) (hs : v.Pairwise (· ≤ ·)) (a : α) :
    ∃ i : Int, bisectLeft (some a) v = some i ∧ -1 ≤ i ∧ i < v.length ∧
      ∀ (j : Nat) (hj : j < v.length), v[j] < a ↔ (j : Int) ≤ i := by
  obtain ⟨i, h1, h2, h3, h4⟩ := bisectLeft_full (some a) v hs
  refine ⟨i, h1, h2, h3, fun j hj => ?_⟩
  rw [← h4 j hj]; simp [cgt]

/-- C01, the documented bracket `v[i] <= x < v[i+1]`: it holds whenever `x` lies
between the first and the last node. -/
theorem C01_bracket_right (v : List α) (hs : v.Pairwise (· ≤ ·)) (a : α)
    (h : 0 < v.length) (hlo : v[0] ≤ a) (hhi : a < v[v.length - 1]) :
    ∃ (i : Nat) (hi : i + 1 < v.length), bisectRight (some a) v = some (i : Int) ∧
      v[i] ≤ a ∧ a < v[i + 1] := by
  obtain ⟨i, h1, h2, h3, h4⟩ := C01_bisect_right v hs a
  have hi0 : 0 ≤ i := by simpa using (h4 0 h).mp hlo
  have hil : ¬ ((v.length - 1 : Nat) : Int) ≤ i := by
    rw [← h4 (v.length - 1) (by omega)]; exact not_le.mpr hhi
  refine ⟨i.toNat, by omega, ?_, ?_, ?_⟩
  · rw [h1]; congr 1; omega
  · exact (h4 i.toNat (by omega)).mpr (by omega)
  · exact not_le.mp (fun hle => by have := (h4 (i.toNat + 1) (by omega)).mp hle; omega)

/-- C01, the documented bracket `v[i] < x <= v[i+1]`. -/
theorem C01_bracket_left (v : List α) (hs : v.Pairwise (· ≤ ·)) (a : α)
    (h : 0 < v.length) (hlo : v[0] < a) (hhi : a ≤ v[v.length - 1]) :
    ∃ (i : Nat) (hi : i + 1 < v.length), bisectLeft (some a) v = some (i : Int) ∧
      v[i] < a ∧ a ≤ v[i + 1] := by
  obtain ⟨i, h1, h2, h3, h4⟩ := C01_bisect_left v hs a
  have hi0 : 0 ≤ i := by simpa using (h4 0 h).mp hlo
  have hil : ¬ ((v.length - 1 : Nat) : Int) ≤ i := by
    rw [← h4 (v.length - 1) (by omega)]; exact not_lt.mpr hhi
  refine ⟨i.toNat, by omega, ?_, ?_, ?_⟩
  · rw [h1]; congr 1; omega
  · exact (h4 i.toNat (by omega)).mpr (by omega)
  · exact not_lt.mp (fun hle => by have := (h4 (i.toNat + 1) (by omega)).mp hle; omega)

/-- C01, outside the nodes: `-1` before the first node, `n-1` from the last node
on, `-1` without nodes. -/
theorem C01_outside_right (v : List α) (hs : v.Pairwise (· ≤ ·)) (a : α) :
    ((∀ b ∈ v, a < b) → bisectRight (some a) v = some (-1)) ∧
    (v ≠ [] → (∀ b ∈ v, b ≤ a) → bisectRight (some a) v = some ((v.length : Int) - 1)) := by
  obtain ⟨i, h1, h2, h3, h4⟩ := C01_bisect_right v hs a
  constructor
  · intro hb
    rw [h1]; congr 1
    by_contra hne
    have hi : i.toNat < v.length := by omega
    have := (h4 i.toNat hi).mpr (by omega)
    exact absurd this (not_le.mpr (hb _ (List.getElem_mem hi)))
  · intro hv hb
    have hl : 0 < v.length := List.length_pos_iff.mpr hv
    have := (h4 (v.length - 1) (by omega)).mp (hb _ (List.getElem_mem _))
    rw [h1]; congr 1; omega

theorem C01_outside_left (v : List α) (hs : v.Pairwise (· ≤ ·)) (a : α) :
    ((∀ b ∈ v, a ≤ b) → bisectLeft (some a) v = some (-1)) ∧
    (v ≠ [] → (∀ b ∈ v, b < a) → bisectLeft (some a) v = some ((v.length : Int) - 1)) := by
  obtain ⟨i, h1, h2, h3, h4⟩ := C01_bisect_left v hs a
  constructor
  · intro hb
    rw [h1]; congr 1
    by_contra hne
    have hi : i.toNat < v.length := by omega
    have := (h4 i.toNat hi).mpr (by omega)
    exact absurd this (not_lt.mpr (hb _ (List.getElem_mem hi)))
  · intro hv hb
    have hl : 0 < v.length := List.length_pos_iff.mpr hv
    have := (h4 (v.length - 1) (by omega)).mp (hb _ (List.getElem_mem _))
    rw [h1]; congr 1; omega

/-- C01, NaN: both searches return `-1`, for any nodes (sorted or not).  (The
comment in bisect.h lines 52 and 96 says `n-1`; the code does not do that.) -/
theorem C01_nan (v : List α) :
    bisectRight none v = some (-1) ∧ bisectLeft none v = some (-1) := by
  constructor
  · unfold bisectRight bisectRightP
    by_cases hn : (v.length : Int) < 1
    · simp [hn]
    · rw [if_neg hn, rd_eq v 0 (by omega) (by omega)]; simp [cge]
  · unfold bisectLeft bisectLeftP
    by_cases hn : (v.length : Int) < 1
    · simp [hn]
    · rw [if_neg hn, rd_eq v 0 (by omega) (by omega)]; simp [cgt]

/-- C01, memory safety: the searches never read outside the node array, even if
the nodes are not sorted. -/
theorem C01_safe (x : Option α) (v : List α) :
    bisectRight x v ≠ none ∧ bisectLeft x v ≠ none :=
  ⟨bisectRightP_safe _ v, bisectLeftP_safe _ _ v⟩

/-- C01 for the Python function on an array of points: it is the `searchsorted`
count minus one at each point (NaN counts as before the first node). -/
theorem C01_bisect_searchsorted (v : List α) (hs : v.Pairwise (· ≤ ·)) (xs : List (Option α)) :
    bisectPy v xs .right = xs.map (fun x => match x with
      | none => some (-1)
      | some a => some ((v.countP (fun b => decide (b ≤ a)) : Int) - 1)) ∧
    bisectPy v xs .left = xs.map (fun x => match x with
      | none => some (-1)
      | some a => some ((v.countP (fun b => decide (b < a)) : Int) - 1)) := by
  have key : ∀ (p : α → Bool) (i : Int), -1 ≤ i → i < v.length →
      (∀ (j : Nat) (hj : j < v.length), p v[j] = true ↔ (j : Int) ≤ i) →
      (v.countP p : Int) - 1 = i := by
    intro p i hi1 hi2 h
    have hsplit : v = v.take (i + 1).toNat ++ v.drop (i + 1).toNat := by simp
    have h1 : (v.take (i+1).toNat).countP p = (i+1).toNat := by
      have : (v.take (i+1).toNat).countP p = (v.take (i+1).toNat).length := by
        rw [List.countP_eq_length]
        intro b hb
        obtain ⟨k, hk, rfl⟩ := List.getElem_of_mem hb
        rw [List.length_take] at hk
        rw [List.getElem_take]
        exact (h k (by omega)).mpr (by omega)
      rw [this, List.length_take]; omega
    have h2 : (v.drop (i+1).toNat).countP p = 0 := by
      rw [List.countP_eq_zero]
      intro b hb
      obtain ⟨k, hk, rfl⟩ := List.getElem_of_mem hb
      rw [List.length_drop] at hk
      rw [List.getElem_drop, h _ (by omega)]
      omega
    have h3 : v.countP p = (i+1).toNat := by
      conv_lhs => rw [hsplit]
      rw [List.countP_append, h1, h2]; rfl
    omega
  constructor
  · unfold bisectPy
    apply List.map_congr_left
    intro x _
    cases x with
    | none => exact (C01_nan v).1
    | some a =>
      obtain ⟨i, h1, h2, h3, h4⟩ := C01_bisect_right v hs a
      simp only [h1]
      rw [key (fun b => decide (b ≤ a)) i h2 h3 (by intro j hj; simp [h4 j hj])]
  · unfold bisectPy
    apply List.map_congr_left
    intro x _
    cases x with
    | none => exact (C01_nan v).2
    | some a =>
      obtain ⟨i, h1, h2, h3, h4⟩ := C01_bisect_left v hs a
      simp only [h1]
      rw [key (fun b => decide (b < a)) i h2 h3 (by intro j hj; simp [h4 j hj])]

/-- Hypotheses of C01 are met by non-trivial data (repeated node included). -/
example : [1, 3, 3, 5].Pairwise ((· ≤ ·) : Int → Int → Prop) ∧
    ([1, 3, 3, 5] : List Int)[0] ≤ 3 ∧ 3 < ([1, 3, 3, 5] : List Int)[3] ∧
    bisectRight (some 3) ([1, 3, 3, 5] : List Int) = some 2 ∧
    bisectLeft (some 3) ([1, 3, 3, 5] : List Int) = some 0 := by
  refine ⟨by decide, by decide, by decide, ?_, ?_⟩ <;>
    simp [bisectRight, bisectLeft, bisectRightP, bisectLeftP, rd, cge, cgt, cle, loopRight, loopLeft]

end Verif.Props
