import Verif.Model.Intervals
import Verif.Spec.Cuts
import Mathlib.Data.List.Pairwise
import Mathlib.Order.Lattice
import Mathlib.Tactic.Basic
import Mathlib.Tactic.ByContra

namespace Verif.Intervals

open Verif.Spec

variable {T O : Type} [LinearOrder T]

/-- `(start, end, object)` -/
def Iv.tup (i : Iv T O) : T × T × O := (i.s, i.e, i.o)

/-- Sorted, non-overlapping, of positive length. -/
def Good (l : List (Iv T O)) : Prop :=
  (∀ i ∈ l, i.s < i.e) ∧ l.Pairwise (fun a b => a.e ≤ b.s)

/-- The effect of the loop on the part of the list ending after `start`. -/
def fill (en : T) (o : O) : T → List (Iv T O) → List (Iv T O)
  | start, [] => if start < en then [⟨start, en, o⟩] else []
  | start, c :: r =>
    if start < en then
      if c.s > start then
        if c.s ≥ en then ⟨start, en, o⟩ :: c :: r
        else ⟨start, c.s, o⟩ :: c :: fill en o c.e r
      else c :: fill en o c.e r
    else c :: r

theorem takeWhile_split (pre rest : List (Iv T O)) (start : T) (hpre : ∀ i ∈ pre, i.e ≤ start)
    (hrest : ∀ i ∈ rest, start < i.e) : bisectRightEnds (pre ++ rest) start = pre.length := by
  unfold bisectRightEnds
  rw [List.takeWhile_append_of_pos (by intro i hi; simpa using hpre i hi)]
  cases rest with
  | nil => simp
  | cons c r =>
    have : ¬ c.e ≤ start := not_le.mpr (hrest c (by simp))
    simp [List.takeWhile_cons, this]

theorem loop_eq (en : T) (o : O) : ∀ (rest pre : List (Iv T O)) (start : T) (fuel : Nat),
    Good (pre ++ rest) → (∀ i ∈ pre, i.e ≤ start) → (∀ i ∈ rest, start < i.e) →
    rest.length + 1 ≤ fuel →
    loop en o fuel (pre ++ rest) start = some (pre ++ fill en o start rest) := by
  intro rest
  induction rest with
  | nil =>
    intro pre start fuel hg hpre hrest hf
    obtain ⟨f, rfl⟩ : ∃ f, fuel = f + 1 := ⟨fuel - 1, by simp at hf; omega⟩
    unfold loop fill
    have hb := takeWhile_split pre [] start hpre (by simp)
    rw [List.append_nil] at hb ⊢
    split
    · rename_i hlt
      simp only [hb, if_true]
      split
      · rename_i h0
        have : pre = [] := List.length_eq_zero_iff.mp h0
        subst this; simp [insertAt]
      · rename_i h0
        have hlen : pre.length - 1 < pre.length := by omega
        rw [List.getElem?_eq_getElem hlen]
        have hle := hpre _ (List.getElem_mem hlen)
        simp only [if_pos (lt_of_le_of_lt hle hlt)]
        simp [insertAt]
    · simp
  | cons c r ih =>
    intro pre start fuel hg hpre hrest hf
    obtain ⟨f, rfl⟩ : ∃ f, fuel = f + 1 := ⟨fuel - 1, by simp at hf; omega⟩
    have hb := takeWhile_split pre (c :: r) start hpre hrest
    have hc : c.s < c.e := hg.1 c (by simp)
    have hr : ∀ i ∈ r, c.e < i.e := by
      intro i hi
      have h1 : c.e ≤ i.s := by
        have := (List.pairwise_append.mp hg.2).2.1
        exact (List.pairwise_cons.mp this).1 i hi
      exact lt_of_le_of_lt h1 (hg.1 i (by simp [hi]))
    have hsc : start < c.e := hrest c (by simp)
    unfold loop fill
    split
    · rename_i hlt
      have hget : (pre ++ c :: r)[pre.length]? = some c := by simp
      simp only [hb, hget]
      rw [if_neg (by simp)]
      split
      · rename_i hgt
        split
        · simp [insertAt]
        · rename_i hge
          have hget2 : (insertAt (pre ++ c :: r) pre.length start c.s o)[pre.length + 1]? = some c := by
            simp [insertAt]
          simp only [hget2]
          have e1 : insertAt (pre ++ c :: r) pre.length start c.s o =
              (pre ++ [⟨start, c.s, o⟩, c]) ++ r := by simp [insertAt]
          rw [e1, ih (pre ++ [⟨start, c.s, o⟩, c]) c.e f ?_ ?_ hr (by simp at hf; omega)]
          · simp
          · -- still good
            have hp := List.pairwise_append.mp hg.2
            have hpc := List.pairwise_cons.mp hp.2.1
            constructor
            · intro i hi
              simp only [List.mem_append, List.mem_cons, List.not_mem_nil,
                or_false, or_assoc] at hi
              rcases hi with hi | rfl | rfl | hi
              · exact hg.1 i (by simp [hi])
              · exact hgt
              · exact hc
              · exact hg.1 i (by simp [hi])
            · rw [List.append_assoc, List.pairwise_append]
              refine ⟨hp.1, ?_, ?_⟩
              · simp only [List.cons_append, List.nil_append, List.pairwise_cons]
                refine ⟨?_, hpc.1, hpc.2⟩
                intro i hi
                rcases List.mem_cons.mp hi with rfl | hi
                · exact le_refl _
                · exact le_trans hc.le (hpc.1 i hi)
              · intro a ha b hb'
                simp only [List.cons_append, List.nil_append, List.mem_cons] at hb'
                rcases hb' with rfl | rfl | hb'
                · exact hpre a ha
                · exact hp.2.2 a ha _ (by simp)
                · exact hp.2.2 a ha b (by simp [hb'])
          · intro i hi
            simp only [List.mem_append, List.mem_cons, List.not_mem_nil, or_false] at hi
            rcases hi with hi | rfl | rfl
            · exact le_trans (hpre i hi) hsc.le
            · exact hc.le
            · exact le_refl _
      · have e1 : pre ++ c :: r = (pre ++ [c]) ++ r := by simp
        rw [e1, ih (pre ++ [c]) c.e f (by rw [← e1]; exact hg) ?_ hr (by simp at hf; omega)]
        · simp
        · intro i hi
          rcases List.mem_append.mp hi with hi | hi
          · exact le_trans (hpre i hi) hsc.le
          · rw [List.mem_singleton.mp hi]
    · rfl

/-- What `fill` covers. -/
theorem fill_good (en : T) (o : O) : ∀ (rest : List (Iv T O)) (start : T),
    Good rest → (∀ i ∈ rest, start < i.e) →
    Good (fill en o start rest) ∧ (∀ i ∈ fill en o start rest, start < i.e) ∧
      (∀ i ∈ fill en o start rest, start ≤ i.s ∨ ∃ j ∈ rest, j.s ≤ i.s) := by
  intro rest
  induction rest with
  | nil =>
    intro start hg hs
    unfold fill
    split
    · rename_i h
      refine ⟨⟨by simpa using h, by simp⟩, by simpa using h, by simp⟩
    · exact ⟨hg, hs, by simp⟩
  | cons c r ih =>
    intro start hg hs
    have hc : c.s < c.e := hg.1 c (by simp)
    have hpc := List.pairwise_cons.mp hg.2
    have hgr : Good r := ⟨fun i hi => hg.1 i (by simp [hi]), hpc.2⟩
    have hr : ∀ i ∈ r, c.e < i.e := fun i hi => lt_of_le_of_lt (hpc.1 i hi) (hg.1 i (by simp [hi]))
    have hsc : start < c.e := hs c (by simp)
    obtain ⟨ih1, ih2, ih3⟩ := ih c.e hgr hr
    have hfs : ∀ i ∈ fill en o c.e r, c.e ≤ i.s := by
      intro i hi
      rcases ih3 i hi with h | ⟨j, hj, hji⟩
      · exact h
      · exact le_trans (hpc.1 j hj) hji
    unfold fill
    split
    · rename_i hlt
      split
      · rename_i hgt
        split
        · rename_i hge
          refine ⟨⟨?_, ?_⟩, ?_, ?_⟩
          · intro i hi
            rcases List.mem_cons.mp hi with rfl | hi
            · exact hlt
            · exact hg.1 i hi
          · refine List.pairwise_cons.mpr ⟨?_, hg.2⟩
            intro i hi
            rcases List.mem_cons.mp hi with rfl | hi
            · exact hge
            · exact le_trans hge (le_trans hc.le (hpc.1 i hi))
          · intro i hi
            rcases List.mem_cons.mp hi with rfl | hi
            · exact hlt
            · exact hs i hi
          · intro i hi
            rcases List.mem_cons.mp hi with rfl | hi
            · exact Or.inl (le_refl _)
            · exact Or.inr ⟨i, hi, le_refl _⟩
        · refine ⟨⟨?_, ?_⟩, ?_, ?_⟩
          · intro i hi
            rcases List.mem_cons.mp hi with rfl | hi
            · exact hgt
            · rcases List.mem_cons.mp hi with rfl | hi
              · exact hc
              · exact ih1.1 i hi
          · refine List.pairwise_cons.mpr ⟨?_, List.pairwise_cons.mpr ⟨hfs, ih1.2⟩⟩
            intro i hi
            rcases List.mem_cons.mp hi with rfl | hi
            · exact le_refl _
            · exact le_trans hc.le (hfs i hi)
          · intro i hi
            rcases List.mem_cons.mp hi with rfl | hi
            · exact hgt
            · rcases List.mem_cons.mp hi with rfl | hi
              · exact hsc
              · exact lt_trans hsc (ih2 i hi)
          · intro i hi
            rcases List.mem_cons.mp hi with rfl | hi
            · exact Or.inl (le_refl _)
            · rcases List.mem_cons.mp hi with rfl | hi
              · exact Or.inr ⟨i, by simp, le_refl _⟩
              · exact Or.inl (le_trans hsc.le (hfs i hi))
      · refine ⟨⟨?_, ?_⟩, ?_, ?_⟩
        · intro i hi
          rcases List.mem_cons.mp hi with rfl | hi
          · exact hc
          · exact ih1.1 i hi
        · exact List.pairwise_cons.mpr ⟨hfs, ih1.2⟩
        · intro i hi
          rcases List.mem_cons.mp hi with rfl | hi
          · exact hsc
          · exact lt_trans hsc (ih2 i hi)
        · intro i hi
          rcases List.mem_cons.mp hi with rfl | hi
          · exact Or.inr ⟨i, by simp, le_refl _⟩
          · exact Or.inl (le_trans hsc.le (hfs i hi))
    · exact ⟨hg, hs, fun i hi => Or.inr ⟨i, hi, le_refl _⟩⟩

/-- Coverage in a list of intervals. -/
def Has (l : List (Iv T O)) (B : T → Prop) (o : O) : Prop := ∃ i ∈ l, i.o = o ∧ B i.s ∧ ¬ B i.e

theorem Has_nil (B : T → Prop) (o : O) : Has ([] : List (Iv T O)) B o ↔ False := by
  simp [Has]

theorem Has_cons (i : Iv T O) (l : List (Iv T O)) (B : T → Prop) (o : O) :
    Has (i :: l) B o ↔ (i.o = o ∧ B i.s ∧ ¬ B i.e) ∨ Has l B o := by
  simp [Has]

theorem Has_append (l m : List (Iv T O)) (B : T → Prop) (o : O) :
    Has (l ++ m) B o ↔ Has l B o ∨ Has m B o := by
  simp only [Has, List.mem_append]
  constructor
  · rintro ⟨i, h | h, r⟩
    · exact Or.inl ⟨i, h, r⟩
    · exact Or.inr ⟨i, h, r⟩
  · rintro (⟨i, h, r⟩ | ⟨i, h, r⟩)
    · exact ⟨i, Or.inl h, r⟩
    · exact ⟨i, Or.inr h, r⟩

theorem Has_covers (l : List (Iv T O)) (B : T → Prop) (o : O) :
    Has l B o ↔ Covers (l.map Iv.tup) B o := by
  simp only [Has, Covers, List.mem_map, Iv.tup, Prod.mk.injEq]
  constructor
  · rintro ⟨i, hi, rfl, h1, h2⟩; exact ⟨i.s, i.e, ⟨i, hi, rfl, rfl, rfl⟩, h1, h2⟩
  · rintro ⟨s, e, ⟨i, hi, rfl, rfl, rfl⟩, h1, h2⟩; exact ⟨i, hi, rfl, h1, h2⟩

theorem fill_has (en : T) (o : O) (B : T → Prop) (hB : IsCut B) (o' : O) :
    ∀ (rest : List (Iv T O)) (start : T), Good rest → (∀ i ∈ rest, start < i.e) →
    (Has (fill en o start rest) B o' ↔
      Has rest B o' ∨ ((¬ ∃ p, Has rest B p) ∧ o' = o ∧ B start ∧ ¬ B en)) := by
  intro rest
  induction rest with
  | nil =>
    intro start hg hs
    unfold fill
    split
    · simp only [Has_cons, Has_nil, or_false, exists_false, not_false_eq_true, true_and, false_or]
      exact ⟨fun ⟨a, b, c⟩ => ⟨a.symm, b, c⟩, fun ⟨a, b, c⟩ => ⟨a.symm, b, c⟩⟩
    · rename_i h
      simp only [Has_nil, false_or]
      refine ⟨False.elim, ?_⟩
      rintro ⟨-, -, h1, h2⟩
      exact h2 (hB _ _ (not_lt.mp h) h1)
  | cons c r ih =>
    intro start hg hs
    have hc : c.s < c.e := hg.1 c (by simp)
    have hpc := List.pairwise_cons.mp hg.2
    have hgr : Good r := ⟨fun i hi => hg.1 i (by simp [hi]), hpc.2⟩
    have hr : ∀ i ∈ r, c.e < i.e := fun i hi => lt_of_le_of_lt (hpc.1 i hi) (hg.1 i (by simp [hi]))
    have hsc : start < c.e := hs c (by simp)
    have ih' := ih c.e hgr hr
    -- nothing of the rest holds a cut before `c.e`
    have hnr : ¬ B c.e → ∀ p, ¬ Has r B p := by
      rintro hne p ⟨i, hi, -, h1, -⟩
      exact hne (hB _ _ (hpc.1 i hi) h1)
    unfold fill
    split
    · rename_i hlt
      split
      · rename_i hgt
        split
        · rename_i hge
          simp only [Has_cons]
          constructor
          · rintro (⟨rfl, h1, h2⟩ | h)
            · right
              refine ⟨?_, rfl, h1, h2⟩
              rintro ⟨p, ⟨-, h3, -⟩ | ⟨i, hi, -, h3, -⟩⟩
              · exact h2 (hB _ _ hge h3)
              · exact h2 (hB _ _ (le_trans hge (le_trans hc.le (hpc.1 i hi))) h3)
            · exact Or.inl h
          · rintro (h | ⟨-, rfl, h1, h2⟩)
            · exact Or.inr h
            · exact Or.inl ⟨rfl, h1, h2⟩
        · rename_i hge
          simp only [Has_cons, ih']
          constructor
          · rintro (⟨rfl, h1, h2⟩ | h | h | ⟨hn, rfl, h1, h2⟩)
            · right
              refine ⟨?_, rfl, h1, fun h3 => h2 (hB _ _ (not_le.mp hge).le h3)⟩
              rintro ⟨p, ⟨-, h3, -⟩ | ⟨i, hi, -, h3, -⟩⟩
              · exact h2 h3
              · exact h2 (hB _ _ (le_trans hc.le (hpc.1 i hi)) h3)
            · exact Or.inl (Or.inl h)
            · exact Or.inl (Or.inr h)
            · right
              refine ⟨?_, rfl, hB _ _ hsc.le h1, h2⟩
              rintro ⟨p, ⟨-, -, h3⟩ | h3⟩
              · exact h3 h1
              · exact hn ⟨p, h3⟩
          · rintro ((h | h) | ⟨hn, rfl, h1, h2⟩)
            · exact Or.inr (Or.inl h)
            · exact Or.inr (Or.inr (Or.inl h))
            · by_cases h3 : B c.s
              · by_cases h4 : B c.e
                · right; right; right
                  exact ⟨fun ⟨p, hp⟩ => hn ⟨p, Or.inr hp⟩, rfl, h4, h2⟩
                · exact absurd ⟨c.o, Or.inl ⟨rfl, h3, h4⟩⟩ hn
              · exact Or.inl ⟨rfl, h1, h3⟩
      · rename_i hgt
        simp only [Has_cons, ih']
        constructor
        · rintro (h | h | ⟨hn, rfl, h1, h2⟩)
          · exact Or.inl (Or.inl h)
          · exact Or.inl (Or.inr h)
          · right
            refine ⟨?_, rfl, hB _ _ hsc.le h1, h2⟩
            rintro ⟨p, ⟨-, -, h3⟩ | h3⟩
            · exact h3 h1
            · exact hn ⟨p, h3⟩
        · rintro ((h | h) | ⟨hn, rfl, h1, h2⟩)
          · exact Or.inl h
          · exact Or.inr (Or.inl h)
          · by_cases h4 : B c.e
            · right; right
              exact ⟨fun ⟨p, hp⟩ => hn ⟨p, Or.inr hp⟩, rfl, h4, h2⟩
            · exact absurd ⟨c.o, Or.inl ⟨rfl, hB _ _ (not_lt.mp hgt) h1, h4⟩⟩ hn
    · rename_i h
      constructor
      · exact Or.inl
      · rintro (h' | ⟨-, -, h1, h2⟩)
        · exact h'
        · exact absurd (hB _ _ (not_lt.mp h) h1) h2

/-- One pass of the `for` loop, fuel arbitrary but large enough. -/
theorem loop_spec (acc : List (Iv T O)) (st en : T) (o : O) (hg : Good acc) :
    ∃ res, (∀ fuel, acc.length + 1 ≤ fuel → loop en o fuel acc st = some res) ∧ Good res ∧
      ∀ B, IsCut B → ∀ o', (Has res B o' ↔
        Has acc B o' ∨ ((¬ ∃ p, Has acc B p) ∧ o' = o ∧ B st ∧ ¬ B en)) := by
  -- split the list at `start`
  obtain ⟨pre, rest, rfl, hpre, hrest⟩ : ∃ pre rest, acc = pre ++ rest ∧ (∀ i ∈ pre, i.e ≤ st) ∧
      (∀ i ∈ rest, st < i.e) := by
    clear o en
    induction acc with
    | nil => exact ⟨[], [], rfl, by simp, by simp⟩
    | cons c r ih =>
      have hpc := List.pairwise_cons.mp hg.2
      obtain ⟨pre, rest, h1, h2, h3⟩ := ih ⟨fun i hi => hg.1 i (by simp [hi]), hpc.2⟩
      by_cases hc : c.e ≤ st
      · exact ⟨c :: pre, rest, by rw [h1]; rfl, by
          intro i hi; rcases List.mem_cons.mp hi with rfl | hi
          · exact hc
          · exact h2 i hi, h3⟩
      · refine ⟨[], c :: r, rfl, by simp, ?_⟩
        intro i hi
        rcases List.mem_cons.mp hi with rfl | hi
        · exact not_le.mp hc
        · exact lt_of_lt_of_le (not_le.mp hc) (le_trans (hpc.1 i hi) (hg.1 i (by simp [hi])).le)
  have hp := List.pairwise_append.mp hg.2
  have hgr : Good rest := ⟨fun i hi => hg.1 i (by simp [hi]), hp.2.1⟩
  obtain ⟨g1, g2, g3⟩ := fill_good en o rest st hgr hrest
  refine ⟨pre ++ fill en o st rest, ?_, ⟨?_, ?_⟩, ?_⟩
  · intro fuel hf
    exact loop_eq en o rest pre st fuel hg hpre hrest (by simp at hf; omega)
  · intro i hi
    rcases List.mem_append.mp hi with hi | hi
    · exact hg.1 i (by simp [hi])
    · exact g1.1 i hi
  · refine List.pairwise_append.mpr ⟨hp.1, g1.2, ?_⟩
    intro a ha b hb
    rcases g3 b hb with h | ⟨j, hj, hjb⟩
    · exact le_trans (hpre a ha) h
    · exact le_trans (hp.2.2 a ha j hj) hjb
  · intro B hB o'
    rw [Has_append, Has_append, fill_has en o B hB o' rest st hgr hrest]
    have hnp : B st → ∀ p, ¬ Has pre B p := by
      rintro h p ⟨i, hi, -, -, h2⟩
      exact h2 (hB _ _ (hpre i hi) h)
    constructor
    · rintro (h | h | ⟨hn, rfl, h1, h2⟩)
      · exact Or.inl (Or.inl h)
      · exact Or.inl (Or.inr h)
      · right
        refine ⟨?_, rfl, h1, h2⟩
        rintro ⟨p, hp'⟩
        rcases (Has_append _ _ _ _).mp hp' with hp' | hp'
        · exact hnp h1 p hp'
        · exact hn ⟨p, hp'⟩
    · rintro ((h | h) | ⟨hn, rfl, h1, h2⟩)
      · exact Or.inl h
      · exact Or.inr (Or.inl h)
      · exact Or.inr (Or.inr ⟨fun ⟨p, hp'⟩ => hn ⟨p, (Has_append _ _ _ _).mpr (Or.inr hp')⟩, rfl, h1, h2⟩)

theorem addInterval_spec (acc : List (Iv T O)) (i : Iv T O) (hg : Good acc) :
    ∃ res, addInterval acc i = some res ∧ Good res ∧
      ∀ B, IsCut B → ∀ o', (Has res B o' ↔
        Has acc B o' ∨ ((¬ ∃ p, Has acc B p) ∧ o' = i.o ∧ B i.s ∧ ¬ B i.e)) := by
  unfold addInterval
  split
  · rename_i h
    refine ⟨acc, rfl, hg, ?_⟩
    intro B hB o'
    constructor
    · exact Or.inl
    · rintro (h' | ⟨-, -, h1, h2⟩)
      · exact h'
      · exact absurd (hB _ _ h.le h1) h2
  · obtain ⟨res, h1, h2, h3⟩ := loop_spec acc i.s i.e i.o hg
    exact ⟨res, h1 _ (le_refl _), h2, h3⟩

theorem foldlM_spec (ivs : List (Iv T O)) : ∀ acc : List (Iv T O), Good acc →
    ∃ res, ivs.foldlM addInterval acc = some res ∧ Good res ∧
      ∀ B, IsCut B → ∀ o', (Has res B o' ↔
        Has acc B o' ∨ ((¬ ∃ p, Has acc B p) ∧ FirstCovers B o' (ivs.map Iv.tup))) := by
  induction ivs with
  | nil =>
    intro acc hg
    refine ⟨acc, rfl, hg, ?_⟩
    intro B hB o'
    constructor
    · exact Or.inl
    · rintro (h | ⟨-, h⟩)
      · exact h
      · cases h
  | cons i l ih =>
    intro acc hg
    obtain ⟨r1, e1, g1, h1⟩ := addInterval_spec acc i hg
    obtain ⟨r2, e2, g2, h2⟩ := ih r1 g1
    refine ⟨r2, ?_, g2, ?_⟩
    · rw [List.foldlM_cons, e1]; exact e2
    · intro B hB o'
      rw [h2 B hB o', h1 B hB o']
      have hex : (∃ p, Has r1 B p) ↔ (∃ p, Has acc B p) ∨ (B i.s ∧ ¬ B i.e) := by
        constructor
        · rintro ⟨p, hp⟩
          rcases (h1 B hB p).mp hp with h | ⟨-, -, h3, h4⟩
          · exact Or.inl ⟨p, h⟩
          · exact Or.inr ⟨h3, h4⟩
        · intro h
          by_cases hx : ∃ p, Has acc B p
          · obtain ⟨p, hp⟩ := hx
            exact ⟨p, (h1 B hB p).mpr (Or.inl hp)⟩
          · rcases h with h | h
            · exact absurd h hx
            · exact ⟨i.o, (h1 B hB i.o).mpr (Or.inr ⟨hx, rfl, h⟩)⟩
      rw [hex]
      constructor
      · rintro ((h | ⟨hn, rfl, h3, h4⟩) | ⟨hn, hf⟩)
        · exact Or.inl h
        · exact Or.inr ⟨hn, .here _ _ _ h3 h4⟩
        · exact Or.inr ⟨fun hx => hn (Or.inl hx), .there _ _ _ _ (fun hx => hn (Or.inr hx)) hf⟩
      · rintro (h | ⟨hn, hf⟩)
        · exact Or.inl (Or.inl h)
        · simp only [List.map_cons, Iv.tup] at hf
          cases hf with
          | here _ _ _ h3 h4 => exact Or.inl (Or.inr ⟨hn, rfl, h3, h4⟩)
          | there _ _ _ _ hx hf =>
            exact Or.inr ⟨fun h => h.elim hn hx, hf⟩

end Verif.Intervals
