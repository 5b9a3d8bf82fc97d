/-
Property C51: times, locations and parameters of different numbers of dimensions.
-/
import Verif.Model.Shapes
import Verif.Spec.NdArray

set_option linter.unusedSectionVars false

namespace Verif.Props

open Verif.Arr Verif.Shapes Verif.Spec

/-- Item of a view. -/
def itemOf {A : Type} (mem : Int → Option A) (a : ArrD) (idx : List Nat) : Option A :=
  elem mem a.data a.stride idx

theorem sum_pad (s : List Int) (k : Nat) : ∀ idx : List Nat,
    (List.zipWith (fun (i : Nat) (t : Int) => (i : Int) * t) idx (s ++ List.replicate k 0)).sum =
      (List.zipWith (fun (i : Nat) (t : Int) => (i : Int) * t) (idx.take s.length) s).sum := by
  induction s with
  | nil =>
    simp only [List.nil_append, List.length_nil, List.take_zero, List.zipWith_nil_left, List.sum_nil]
    induction k with
    | zero => intro idx; simp
    | succ k ih =>
      intro idx
      cases idx with
      | nil => simp
      | cons i idx => simp [List.replicate_succ, ih]
  | cons t s ih =>
    intro idx
    cases idx with
    | nil => simp
    | cons i idx => simp [ih]

theorem take_min {a b : List Nat} (h : a <+: b) (n : Nat) (hn : a.length ≤ n) :
    a.take (min a.length n) = b.take (min a.length n) := by
  obtain ⟨r, rfl⟩ := h
  rw [Nat.min_eq_left hn]
  simp

/-- Compatible: one of the shapes is the leading part of the other. -/
def Leading (a b : List Nat) : Prop := a <+: b ∨ b <+: a

theorem take_leading {a b c : List Nat} :
    a.take (min a.length b.length) = (b ++ c).take (min a.length b.length) ↔ Leading a b := by
  have e : (b ++ c).take (min a.length b.length) = b.take (min a.length b.length) := by
    rw [List.take_append_of_le_length (Nat.min_le_right _ _)]
  rw [e]
  constructor
  · intro h
    rcases Nat.le_total a.length b.length with hl | hl
    · rw [Nat.min_eq_left hl, List.take_length] at h
      exact .inl (h ▸ List.take_prefix _ _)
    · rw [Nat.min_eq_right hl, List.take_length] at h
      exact .inr (h ▸ List.take_prefix _ _)
  · rintro (⟨r, rfl⟩ | ⟨r, rfl⟩) <;> simp

/-- **C51** (partial: the locations have at least as many dimensions as the times).  The
coordinates are left as they are.  Scalar times are left as they are; times of the leading
dimensions of the locations are repeated over the others, without copying. -/
theorem C51_times_partial {A : Type} (mem : Int → Option A) (time coords : ArrD) (lead : List Nat) (c : Nat)
    (hc : coords.dim = lead ++ [c]) (hs : time.stride.length = time.dim.length) (h : time.dim <+: lead) :
    ∃ t, reshapeTimesAndCoordinates time coords = .ok (t, coords) ∧
      t.dim = (if time.dim = [] then [] else lead) ∧
      ∀ idx, itemOf mem t idx = itemOf mem time (idx.take time.dim.length) := by
  have hlen := h.length_le
  have hne : coords.dim ≠ [] := by rw [hc]; simp
  obtain ⟨x, xs, hx⟩ := List.exists_cons_of_ne_nil hne
  have hcl : coords.dim.length - 1 = lead.length := by rw [hc]; simp
  have htk := (take_leading (a := time.dim) (b := lead) (c := [c])).mpr (.inl h)
  unfold reshapeTimesAndCoordinates
  rw [hx]
  simp only
  rw [← hx, hcl, if_neg (by rw [hc]; simpa using htk), Nat.max_eq_right hlen, Nat.min_eq_left hlen,
    if_neg (by omega)]
  by_cases h0 : 0 < time.dim.length ∧ time.dim.length < lead.length
  · rw [if_pos h0]
    have hn : time.dim ≠ [] := by intro h; rw [h] at h0; simp at h0
    refine ⟨_, rfl, by simp [hn, hc], ?_⟩
    intro idx
    unfold itemOf elem
    simp only
    rw [sum_pad, hs]
  · rw [if_neg h0]
    refine ⟨_, rfl, ?_, ?_⟩
    · by_cases hn : time.dim = []
      · simp [hn]
      · rw [if_neg hn]
        refine h.eq_of_length ?_
        have : 0 < time.dim.length := List.length_pos_iff.mpr hn
        omega
    · intro idx
      have := sum_pad time.stride 0 idx
      unfold itemOf elem
      rw [hs] at this
      rw [← this]
      simp

/-- **C51**, incompatible dimensions are rejected. -/
theorem C51_incompatible (time coords : ArrD) (lead : List Nat) (c : Nat) (hc : coords.dim = lead ++ [c]) :
    reshapeTimesAndCoordinates time coords = .error .valueError ↔ ¬Leading time.dim lead := by
  have hne : coords.dim ≠ [] := by rw [hc]; simp
  obtain ⟨x, xs, hx⟩ := List.exists_cons_of_ne_nil hne
  have hcl : coords.dim.length - 1 = lead.length := by rw [hc]; simp
  have htk := take_leading (a := time.dim) (b := lead) (c := [c])
  unfold reshapeTimesAndCoordinates
  rw [hx]
  simp only
  rw [← hx, hcl, hc]
  by_cases hl : Leading time.dim lead
  · rw [if_neg (not_not.mpr (htk.mpr hl))]
    split_ifs <;> simp [hl]
  · rw [if_pos (fun e => hl (htk.mp e))]
    simp [hl]

/-- **C51**, disagreement: an array of times with more dimensions than the locations, which
the function is written to accept (it repeats the coordinates), always ends with
`TypeError`. -/
theorem C51_more_times (time coords : ArrD) (lead : List Nat) (c : Nat) (hc : coords.dim = lead ++ [c])
    (h : lead <+: time.dim) (hl : lead.length < time.dim.length) :
    reshapeTimesAndCoordinates time coords = .error .typeError := by
  have hne : coords.dim ≠ [] := by rw [hc]; simp
  obtain ⟨x, xs, hx⟩ := List.exists_cons_of_ne_nil hne
  have hcl : coords.dim.length - 1 = lead.length := by rw [hc]; simp
  have htk := (take_leading (a := time.dim) (b := lead) (c := [c])).mpr (.inr h)
  unfold reshapeTimesAndCoordinates
  rw [hx]
  simp only
  rw [← hx, hcl, hc, if_neg (not_not.mpr htk), if_pos (by omega)]

/-- **C51**, parameters: an array of the leading dimensions is repeated over the others,
every other array is rejected. -/
theorem C51_array {A : Type} (mem : Int → Option A) (shape : List Nat) (array : ArrD)
    (hs : array.stride.length = array.dim.length) :
    (¬array.dim <+: shape → reshapeArray shape array = .error .valueError) ∧
    (array.dim <+: shape → ∃ t, reshapeArray shape array = .ok t ∧ t.dim = shape ∧
      ∀ idx, itemOf mem t idx = itemOf mem array (idx.take array.dim.length)) := by
  have htk := take_leading (a := shape) (b := array.dim) (c := [])
  rw [List.append_nil] at htk
  constructor
  · intro h
    unfold reshapeArray
    simp only
    rw [if_pos]
    by_contra hn
    rw [not_or, not_not, htk] at hn
    obtain ⟨h1 | h1, h2⟩ := hn
    · exact h (h1.eq_of_length_le (by omega) ▸ List.prefix_rfl)
    · exact h h1
  · intro h
    have hlen := h.length_le
    unfold reshapeArray
    simp only
    rw [if_neg (by rw [not_or, not_not, htk]; exact ⟨.inr h, by omega⟩)]
    by_cases h0 : array.dim.length < shape.length
    · rw [if_pos h0]
      refine ⟨_, rfl, rfl, ?_⟩
      intro idx
      unfold itemOf elem
      simp only
      rw [sum_pad, hs]
    · rw [if_neg h0]
      refine ⟨_, rfl, h.eq_of_length (by omega), ?_⟩
      intro idx
      have := sum_pad array.stride 0 idx
      unfold itemOf elem
      rw [hs] at this
      rw [← this]
      simp

example : ([4] : List Nat) <+: [4, 5] ∧ ¬Leading [3] [4, 5] ∧ [] <+: ([7] : List Nat) := by
  refine ⟨⟨[5], rfl⟩, ?_, ⟨[7], rfl⟩⟩
  rintro (⟨r, h⟩ | ⟨r, h⟩) <;> simp at h

end Verif.Props
