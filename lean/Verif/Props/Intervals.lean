/-
C16, C17: validity interval algorithms.
-/
import Verif.Lemmas.Aggregate
import Mathlib.Data.Int.Order.Basic

namespace Verif.Props

open Verif.Intervals Verif.Spec

variable {T O : Type} [LinearOrder T]

/-- C16: the decomposition terminates and its result consists of intervals of
positive length, sorted and not overlapping, such that just before and just after any
time (any cut of the time axis) the covering object is that of the first input
interval holding it; nothing is lost or added. -/
theorem C16_nonoverlapping (ivs : List (Iv T O)) :
    ∃ res, nonOverlapping ivs = some res ∧
      (∀ i ∈ res, i.s < i.e) ∧ res.Pairwise (fun a b => a.e ≤ b.s) ∧
      ∀ B, IsCut B → ∀ o,
        Covers (res.map Iv.tup) B o ↔ FirstCovers B o (ivs.map Iv.tup) := by
  obtain ⟨res, h1, h2, h3⟩ := foldlM_spec ivs [] ⟨by simp, by simp⟩
  refine ⟨res, h1, h2.1, h2.2, ?_⟩
  intro B hB o
  rw [← Has_covers, h3 B hB o]
  simp [Has_nil]

/-- C16: the `while` loop ends: more passes than the number of intervals plus one are
never needed, and the result does not depend on the allowance. -/
theorem C16_terminates (acc : List (Iv T O)) (st en : T) (o : O)
    (h1 : ∀ i ∈ acc, i.s < i.e) (h2 : acc.Pairwise (fun a b => a.e ≤ b.s)) :
    ∃ res, ∀ fuel, acc.length + 1 ≤ fuel → loop en o fuel acc st = some res := by
  obtain ⟨res, h, -⟩ := loop_spec acc st en o ⟨h1, h2⟩
  exact ⟨res, h⟩

/-- C16 in terms of times: a time which is no interval end is covered by the object of
the first input interval containing it. -/
theorem C16_at_times (ivs : List (Iv T O)) (t : T) :
    ∃ res, nonOverlapping ivs = some res ∧
      ((∀ i ∈ res, t ≠ i.s ∧ t ≠ i.e) → (∀ i ∈ ivs, t ≠ i.s ∧ t ≠ i.e) → ∀ o,
        ((∃ i ∈ res, i.o = o ∧ i.s ≤ t ∧ t ≤ i.e) ↔
          ∃ pre i post, ivs = pre ++ i :: post ∧ i.o = o ∧ (i.s ≤ t ∧ t ≤ i.e) ∧
            ∀ j ∈ pre, ¬ (j.s ≤ t ∧ t ≤ j.e))) := by
  obtain ⟨res, h1, -, -, h4⟩ := C16_nonoverlapping ivs
  refine ⟨res, h1, ?_⟩
  intro hr hi o
  have h := h4 (fun x => x ≤ t) (isCut_le t) o
  have hl : (∃ i ∈ res, i.o = o ∧ i.s ≤ t ∧ t ≤ i.e) ↔ Covers (res.map Iv.tup) (fun x => x ≤ t) o := by
    rw [← Has_covers]
    constructor
    · rintro ⟨i, hm, ho, hs, he⟩
      exact ⟨i, hm, ho, hs, not_le.mpr (lt_of_le_of_ne he (hr i hm).2)⟩
    · rintro ⟨i, hm, ho, hs, he⟩
      exact ⟨i, hm, ho, hs, (not_le.mp he).le⟩
  rw [hl, h]
  clear h hl h4 h1 hr
  induction ivs with
  | nil =>
    constructor
    · intro h; cases h
    · rintro ⟨pre, i, post, he, -⟩; simp at he
  | cons c l ih =>
    have hc := hi c (by simp)
    have hcl : (c.s ≤ t ∧ ¬ c.e ≤ t) ↔ (c.s ≤ t ∧ t ≤ c.e) :=
      ⟨fun ⟨a, b⟩ => ⟨a, (not_le.mp b).le⟩, fun ⟨a, b⟩ => ⟨a, not_le.mpr (lt_of_le_of_ne b hc.2)⟩⟩
    constructor
    · intro h
      simp only [List.map_cons, Iv.tup] at h
      cases h with
      | here _ _ _ a b => exact ⟨[], c, l, rfl, rfl, hcl.mp ⟨a, b⟩, by simp⟩
      | there _ _ _ _ a b =>
        obtain ⟨pre, i, post, he, ho, hin, hp⟩ := (ih (fun i hm => hi i (by simp [hm]))).mp b
        refine ⟨c :: pre, i, post, by rw [he]; rfl, ho, hin, ?_⟩
        intro j hj
        rcases List.mem_cons.mp hj with rfl | hj
        · exact fun hx => a (hcl.mpr hx)
        · exact hp j hj
    · rintro ⟨pre, i, post, he, ho, hin, hp⟩
      cases pre with
      | nil =>
        simp only [List.nil_append, List.cons.injEq] at he
        obtain ⟨rfl, rfl⟩ := he
        subst ho
        exact .here _ _ _ (hcl.mpr hin).1 (hcl.mpr hin).2
      | cons p pre =>
        simp only [List.cons_append, List.cons.injEq] at he
        obtain ⟨rfl, rfl⟩ := he
        exact .there _ _ _ _ (fun hx => hp c (by simp) (hcl.mp hx))
          ((ih (fun i hm => hi i (by simp [hm]))).mpr
            ⟨pre, i, post, rfl, ho, hin, fun j hj => hp j (by simp [hj])⟩)

/-- C17: the aggregation of two sorted non-overlapping lists covers a cut with the
joined object list exactly if both lists cover it with the parts. -/
theorem C17_coverage (ivs : List (Iv T O)) (aggs : List (Iv T (List O)))
    (h1 : ∀ i ∈ aggs, i.s ≤ i.e) (h2 : aggs.Pairwise (fun a b => a.e ≤ b.s))
    (h3 : ∀ i ∈ ivs, i.s ≤ i.e) (h4 : ivs.Pairwise (fun a b => a.e ≤ b.s))
    (B : T → Prop) (hB : IsCut B) (os : List O) :
    Covers ((aggregate ivs aggs).map Iv.tup) B os ↔
      ∃ x y, os = x ++ [y] ∧ Covers (aggs.map Iv.tup) B x ∧ Covers (ivs.map Iv.tup) B y := by
  simp only [← Has_covers]
  exact aggregate_has ivs aggs ⟨h1, h2⟩ ⟨h3, h4⟩ B hB os

/-- C17, times: the half-open intervals of the result are the pairwise intersections. -/
theorem C17_times (ivs : List (Iv T O)) (aggs : List (Iv T (List O)))
    (h1 : ∀ i ∈ aggs, i.s ≤ i.e) (h2 : aggs.Pairwise (fun a b => a.e ≤ b.s))
    (h3 : ∀ i ∈ ivs, i.s ≤ i.e) (h4 : ivs.Pairwise (fun a b => a.e ≤ b.s)) (t : T) (os : List O) :
    (∃ i ∈ aggregate ivs aggs, i.o = os ∧ i.s ≤ t ∧ t < i.e) ↔
      ∃ a ∈ aggs, ∃ b ∈ ivs, os = a.o ++ [b.o] ∧ (a.s ≤ t ∧ t < a.e) ∧ (b.s ≤ t ∧ t < b.e) := by
  have h := aggregate_has ivs aggs ⟨h1, h2⟩ ⟨h3, h4⟩ (fun x => x ≤ t) (isCut_le t) os
  simp only [Has, not_le] at h
  rw [h]
  constructor
  · rintro ⟨x, y, rfl, ⟨a, ha, rfl, ha'⟩, b, hb, rfl, hb'⟩
    exact ⟨a, ha, b, hb, rfl, ha', hb'⟩
  · rintro ⟨a, ha, b, hb, rfl, ha', hb'⟩
    exact ⟨a.o, b.o, rfl, ⟨a, ha, rfl, ha'⟩, b, hb, rfl, hb'⟩

/-- C17: the result is again sorted and non-overlapping (so aggregation can be
repeated), and each result interval is the closed intersection of two inputs. -/
theorem C17_sorted (ivs : List (Iv T O)) (aggs : List (Iv T (List O)))
    (h1 : ∀ i ∈ aggs, i.s ≤ i.e) (h2 : aggs.Pairwise (fun a b => a.e ≤ b.s))
    (h3 : ∀ i ∈ ivs, i.s ≤ i.e) (h4 : ivs.Pairwise (fun a b => a.e ≤ b.s)) :
    (∀ i ∈ aggregate ivs aggs, i.s ≤ i.e) ∧
    (aggregate ivs aggs).Pairwise (fun a b => a.e ≤ b.s) ∧
    ∀ i ∈ aggregate ivs aggs, ∃ a ∈ aggs, ∃ b ∈ ivs, i.o = a.o ++ [b.o] ∧
      i.s = max a.s b.s ∧ i.e = min a.e b.e := by
  obtain ⟨g1, g2⟩ := aggregate_good ivs aggs ⟨h1, h2⟩ ⟨h3, h4⟩
  refine ⟨g1, g2, ?_⟩
  intro i hi
  unfold aggregate at hi
  cases aggs with
  | nil => exact absurd hi (by simp)
  | cons a as =>
    cases ivs with
    | nil => exact absurd hi (by simp)
    | cons b bs =>
      obtain ⟨a', ha', b', hb', hm⟩ := aggLoop_mem a as b bs i hi
      obtain ⟨e1, e2, e3, -, -⟩ := aggHead_mem a' b' i hm
      exact ⟨a', ha', b', hb', e3, e1, e2⟩

/-- C17 with `aggregates=None`: the intervals themselves, each with its object in a
list of one. -/
theorem C17_none [BoundedOrder T] (ivs : List (Iv T O))
    (h3 : ∀ i ∈ ivs, i.s ≤ i.e) (h4 : ivs.Pairwise (fun a b => a.e ≤ b.s)) (t : T) (ht : t < ⊤)
    (os : List O) :
    (∃ i ∈ aggregateNone ivs, i.o = os ∧ i.s ≤ t ∧ t < i.e) ↔
      ∃ b ∈ ivs, os = [b.o] ∧ b.s ≤ t ∧ t < b.e := by
  unfold aggregateNone
  rw [C17_times ivs [⟨⊥, ⊤, []⟩] (by simp) (by simp) h3 h4]
  constructor
  · rintro ⟨a, ha, b, hb, rfl, -, hb'⟩
    rw [List.mem_singleton] at ha; subst ha
    exact ⟨b, hb, rfl, hb'⟩
  · rintro ⟨b, hb, rfl, hb'⟩
    exact ⟨⟨⊥, ⊤, []⟩, by simp, b, hb, rfl, ⟨bot_le, ht⟩, hb'⟩

/-- Non-trivial instance: three overlapping intervals; the first ones win. -/
example : (nonOverlapping [⟨2, 4, 'a'⟩, ⟨0, 10, 'b'⟩, ⟨5, 20, 'c'⟩] : Option (List (Iv Int Char))) =
    some [⟨0, 2, 'b'⟩, ⟨2, 4, 'a'⟩, ⟨4, 10, 'b'⟩, ⟨10, 20, 'c'⟩] := by rfl

/-- Non-trivial instance of the hypotheses of C17. -/
example : (∀ i ∈ ([⟨0, 2, ['x']⟩, ⟨2, 7, ['y']⟩] : List (Iv Int (List Char))), i.s ≤ i.e) ∧
    ([⟨0, 2, ['x']⟩, ⟨2, 7, ['y']⟩] : List (Iv Int (List Char))).Pairwise (fun a b => a.e ≤ b.s) ∧
    (aggregate ([⟨1, 5, 'b'⟩] : List (Iv Int Char)) [⟨0, 2, ['x']⟩, ⟨2, 7, ['y']⟩]).length = 2 := by
  refine ⟨by simp, by simp, ?_⟩
  simp [aggregate, aggLoop, intersect]

end Verif.Props
