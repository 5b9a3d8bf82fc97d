import Verif.Lemmas.Intervals

namespace Verif.Intervals

open Verif.Spec

variable {T O : Type} [LinearOrder T]

/-- Sorted, non-overlapping, possibly of zero length. -/
def Good0 (l : List (Iv T O)) : Prop :=
  (∀ i ∈ l, i.s ≤ i.e) ∧ l.Pairwise (fun a b => a.e ≤ b.s)

theorem Good.weak {l : List (Iv T O)} (h : Good l) : Good0 l :=
  ⟨fun i hi => (h.1 i hi).le, h.2⟩

/-- The head of the result. -/
def aggHead (a : Iv T (List O)) (b : Iv T O) : List (Iv T (List O)) :=
  match intersect a.s a.e b.s b.e with
  | some (s, e) => [⟨s, e, a.o ++ [b.o]⟩]
  | none => []

theorem aggHead_has (a : Iv T (List O)) (b : Iv T O) (B : T → Prop) (hB : IsCut B)
    (os : List O) :
    Has (aggHead a b) B os ↔ os = a.o ++ [b.o] ∧ (B a.s ∧ ¬ B a.e) ∧ (B b.s ∧ ¬ B b.e) := by
  unfold aggHead intersect
  split
  · rename_i s e h
    split at h
    · rename_i hc
      simp only [Option.some.injEq, Prod.mk.injEq] at h
      obtain ⟨rfl, rfl⟩ := h
      rw [Has_cons, Has_nil, or_false]
      simp only
      constructor
      · rintro ⟨rfl, h1, h2⟩
        refine ⟨rfl, ⟨hB _ _ (le_max_left _ _) h1, fun h => h2 (hB _ _ (min_le_left _ _) h)⟩,
          hB _ _ (le_max_right _ _) h1, fun h => h2 (hB _ _ (min_le_right _ _) h)⟩
      · rintro ⟨rfl, ⟨h1, h2⟩, h3, h4⟩
        refine ⟨rfl, ?_, ?_⟩
        · rcases le_total a.s b.s with h | h
          · rwa [max_eq_right h]
          · rwa [max_eq_left h]
        · rcases le_total a.e b.e with h | h
          · rwa [min_eq_left h]
          · rwa [min_eq_right h]
    · exact absurd h (by simp)
  · rename_i h
    split at h
    · exact absurd h (by simp)
    · rename_i hc
      rw [Has_nil]
      refine ⟨False.elim, ?_⟩
      rintro ⟨-, ⟨h1, h2⟩, h3, h4⟩
      apply hc
      constructor
      · by_contra hx; exact h4 (hB _ _ (not_le.mp hx).le h1)
      · by_contra hx; exact h2 (hB _ _ (not_le.mp hx).le h3)

theorem aggLoop_unfold (a : Iv T (List O)) (as : List (Iv T (List O))) (b : Iv T O)
    (bs : List (Iv T O)) : aggLoop a as b bs =
      if b.e < a.e then
        match bs with
        | [] => aggHead a b
        | b' :: bs' => aggHead a b ++ aggLoop a as b' bs'
      else
        match as with
        | [] => aggHead a b
        | a' :: as' => aggHead a b ++ aggLoop a' as' b bs := by
  rw [aggLoop.eq_def]; rfl

theorem aggLoop_has (a : Iv T (List O)) (as : List (Iv T (List O))) (b : Iv T O)
    (bs : List (Iv T O)) (ha : Good0 (a :: as)) (hb : Good0 (b :: bs)) (B : T → Prop)
    (hB : IsCut B) (os : List O) :
    Has (aggLoop a as b bs) B os ↔
      ∃ x y, os = x ++ [y] ∧ Has (a :: as) B x ∧ Has (b :: bs) B y := by
  have hpa := List.pairwise_cons.mp ha.2
  have hpb := List.pairwise_cons.mp hb.2
  rw [aggLoop_unfold]
  split
  · rename_i hlt
    -- `b` does not meet anything of `as`
    have hnone : ∀ x, B b.s → ¬ B b.e → ¬ Has as B x := by
      rintro x - h2 ⟨i, hi, -, h3, -⟩
      exact h2 (hB _ _ (le_trans hlt.le (hpa.1 i hi)) h3)
    cases bs with
    | nil =>
      rw [aggHead_has a b B hB]
      constructor
      · rintro ⟨rfl, h1, h2⟩
        exact ⟨a.o, b.o, rfl, (Has_cons _ _ _ _).mpr (Or.inl ⟨rfl, h1⟩),
          (Has_cons _ _ _ _).mpr (Or.inl ⟨rfl, h2⟩)⟩
      · rintro ⟨x, y, rfl, hx, hy⟩
        rcases (Has_cons _ _ _ _).mp hy with ⟨rfl, h2⟩ | h
        · rcases (Has_cons _ _ _ _).mp hx with ⟨rfl, h1⟩ | h
          · exact ⟨rfl, h1, h2⟩
          · exact absurd h (hnone x h2.1 h2.2)
        · exact absurd h (by simp [Has_nil])
    | cons b' bs' =>
      simp only
      rw [Has_append, aggHead_has a b B hB,
        aggLoop_has a as b' bs' ha ⟨fun i hi => hb.1 i (List.mem_cons_of_mem _ hi), hpb.2⟩ B hB os]
      constructor
      · rintro (⟨rfl, h1, h2⟩ | ⟨x, y, rfl, hx, hy⟩)
        · exact ⟨a.o, b.o, rfl, (Has_cons _ _ _ _).mpr (Or.inl ⟨rfl, h1⟩),
            (Has_cons _ _ _ _).mpr (Or.inl ⟨rfl, h2⟩)⟩
        · exact ⟨x, y, rfl, hx, (Has_cons _ _ _ _).mpr (Or.inr hy)⟩
      · rintro ⟨x, y, rfl, hx, hy⟩
        rcases (Has_cons _ _ _ _).mp hy with ⟨rfl, h2⟩ | h
        · rcases (Has_cons _ _ _ _).mp hx with ⟨rfl, h1⟩ | h
          · exact Or.inl ⟨rfl, h1, h2⟩
          · exact absurd h (hnone x h2.1 h2.2)
        · exact Or.inr ⟨x, y, rfl, hx, h⟩
  · rename_i hlt
    have hle : a.e ≤ b.e := not_lt.mp hlt
    have hnone : ∀ y, B a.s → ¬ B a.e → ¬ Has bs B y := by
      rintro x - h2 ⟨i, hi, -, h3, -⟩
      exact h2 (hB _ _ (le_trans hle (hpb.1 i hi)) h3)
    cases as with
    | nil =>
      rw [aggHead_has a b B hB]
      constructor
      · rintro ⟨rfl, h1, h2⟩
        exact ⟨a.o, b.o, rfl, (Has_cons _ _ _ _).mpr (Or.inl ⟨rfl, h1⟩),
          (Has_cons _ _ _ _).mpr (Or.inl ⟨rfl, h2⟩)⟩
      · rintro ⟨x, y, rfl, hx, hy⟩
        rcases (Has_cons _ _ _ _).mp hx with ⟨rfl, h1⟩ | h
        · rcases (Has_cons _ _ _ _).mp hy with ⟨rfl, h2⟩ | h
          · exact ⟨rfl, h1, h2⟩
          · exact absurd h (hnone y h1.1 h1.2)
        · exact absurd h (by simp [Has_nil])
    | cons a' as' =>
      simp only
      rw [Has_append, aggHead_has a b B hB,
        aggLoop_has a' as' b bs ⟨fun i hi => ha.1 i (List.mem_cons_of_mem _ hi), hpa.2⟩ hb B hB os]
      constructor
      · rintro (⟨rfl, h1, h2⟩ | ⟨x, y, rfl, hx, hy⟩)
        · exact ⟨a.o, b.o, rfl, (Has_cons _ _ _ _).mpr (Or.inl ⟨rfl, h1⟩),
            (Has_cons _ _ _ _).mpr (Or.inl ⟨rfl, h2⟩)⟩
        · exact ⟨x, y, rfl, (Has_cons _ _ _ _).mpr (Or.inr hx), hy⟩
      · rintro ⟨x, y, rfl, hx, hy⟩
        rcases (Has_cons _ _ _ _).mp hx with ⟨rfl, h1⟩ | h
        · rcases (Has_cons _ _ _ _).mp hy with ⟨rfl, h2⟩ | h
          · exact Or.inl ⟨rfl, h1, h2⟩
          · exact absurd h (hnone y h1.1 h1.2)
        · exact Or.inr ⟨x, y, rfl, h, hy⟩
termination_by as.length + bs.length

/-- Every result interval is the closed intersection of two input intervals. -/
theorem aggHead_mem (a : Iv T (List O)) (b : Iv T O) (i : Iv T (List O)) (hi : i ∈ aggHead a b) :
    i.s = max a.s b.s ∧ i.e = min a.e b.e ∧ i.o = a.o ++ [b.o] ∧ a.s ≤ b.e ∧ b.s ≤ a.e := by
  unfold aggHead intersect at hi
  split at hi
  · rename_i s e h
    split at h
    · rename_i hc
      simp only [Option.some.injEq, Prod.mk.injEq] at h
      obtain ⟨rfl, rfl⟩ := h
      rw [List.mem_singleton] at hi
      subst hi
      exact ⟨rfl, rfl, rfl, hc.1, hc.2⟩
    · exact absurd h (by simp)
  · exact absurd hi (by simp)

theorem aggLoop_mem (a : Iv T (List O)) (as : List (Iv T (List O))) (b : Iv T O)
    (bs : List (Iv T O)) (i : Iv T (List O)) (hi : i ∈ aggLoop a as b bs) :
    ∃ a' ∈ a :: as, ∃ b' ∈ b :: bs, i ∈ aggHead a' b' := by
  rw [aggLoop_unfold] at hi
  split at hi
  · cases bs with
    | nil => exact ⟨a, by simp, b, by simp, hi⟩
    | cons b' bs' =>
      rcases List.mem_append.mp hi with hi | hi
      · exact ⟨a, by simp, b, by simp, hi⟩
      · obtain ⟨x, hx, y, hy, h⟩ := aggLoop_mem a as b' bs' i hi
        exact ⟨x, hx, y, List.mem_cons_of_mem _ hy, h⟩
  · cases as with
    | nil => exact ⟨a, by simp, b, by simp, hi⟩
    | cons a' as' =>
      rcases List.mem_append.mp hi with hi | hi
      · exact ⟨a, by simp, b, by simp, hi⟩
      · obtain ⟨x, hx, y, hy, h⟩ := aggLoop_mem a' as' b bs i hi
        exact ⟨x, List.mem_cons_of_mem _ hx, y, hy, h⟩
termination_by as.length + bs.length

theorem aggLoop_good (a : Iv T (List O)) (as : List (Iv T (List O))) (b : Iv T O)
    (bs : List (Iv T O)) (ha : Good0 (a :: as)) (hb : Good0 (b :: bs)) :
    Good0 (aggLoop a as b bs) ∧ ∀ i ∈ aggLoop a as b bs, a.s ≤ i.s ∧ b.s ≤ i.s := by
  have hpa := List.pairwise_cons.mp ha.2
  have hpb := List.pairwise_cons.mp hb.2
  have haa : a.s ≤ a.e := ha.1 a (by simp)
  have hbb : b.s ≤ b.e := hb.1 b (by simp)
  have hhead : ∀ i ∈ aggHead a b, i.s ≤ i.e ∧ a.s ≤ i.s ∧ b.s ≤ i.s ∧ i.e ≤ a.e ∧ i.e ≤ b.e := by
    intro i hi
    obtain ⟨h1, h2, -, h4, h5⟩ := aggHead_mem a b i hi
    rw [h1, h2]
    exact ⟨max_le (le_min haa h4) (le_min h5 hbb), le_max_left _ _, le_max_right _ _,
      min_le_left _ _, min_le_right _ _⟩
  have hheadp : (aggHead a b).Pairwise (fun a b => a.e ≤ b.s) := by
    unfold aggHead; split <;> simp
  rw [aggLoop_unfold]
  split
  · rename_i hlt
    cases bs with
    | nil => exact ⟨⟨fun i hi => (hhead i hi).1, hheadp⟩,
        fun i hi => ⟨(hhead i hi).2.1, (hhead i hi).2.2.1⟩⟩
    | cons b' bs' =>
      obtain ⟨g1, g2⟩ := aggLoop_good a as b' bs' ha
        ⟨fun i hi => hb.1 i (List.mem_cons_of_mem _ hi), hpb.2⟩
      have hbb' := hpb.1 b' (by simp)
      refine ⟨⟨?_, ?_⟩, ?_⟩
      · intro i hi
        rcases List.mem_append.mp hi with hi | hi
        · exact (hhead i hi).1
        · exact g1.1 i hi
      · refine List.pairwise_append.mpr ⟨hheadp, g1.2, ?_⟩
        intro x hx y hy
        exact le_trans (hhead x hx).2.2.2.2 (le_trans hbb' (g2 y hy).2)
      · intro i hi
        rcases List.mem_append.mp hi with hi | hi
        · exact ⟨(hhead i hi).2.1, (hhead i hi).2.2.1⟩
        · exact ⟨(g2 i hi).1, le_trans hbb (le_trans hbb' (g2 i hi).2)⟩
  · cases as with
    | nil => exact ⟨⟨fun i hi => (hhead i hi).1, hheadp⟩,
        fun i hi => ⟨(hhead i hi).2.1, (hhead i hi).2.2.1⟩⟩
    | cons a' as' =>
      obtain ⟨g1, g2⟩ := aggLoop_good a' as' b bs
        ⟨fun i hi => ha.1 i (List.mem_cons_of_mem _ hi), hpa.2⟩ hb
      have haa' := hpa.1 a' (by simp)
      refine ⟨⟨?_, ?_⟩, ?_⟩
      · intro i hi
        rcases List.mem_append.mp hi with hi | hi
        · exact (hhead i hi).1
        · exact g1.1 i hi
      · refine List.pairwise_append.mpr ⟨hheadp, g1.2, ?_⟩
        intro x hx y hy
        exact le_trans (hhead x hx).2.2.2.1 (le_trans haa' (g2 y hy).1)
      · intro i hi
        rcases List.mem_append.mp hi with hi | hi
        · exact ⟨(hhead i hi).2.1, (hhead i hi).2.2.1⟩
        · exact ⟨le_trans haa (le_trans haa' (g2 i hi).1), (g2 i hi).2⟩
termination_by as.length + bs.length

theorem aggregate_has (ivs : List (Iv T O)) (aggs : List (Iv T (List O)))
    (ha : Good0 aggs) (hb : Good0 ivs) (B : T → Prop) (hB : IsCut B) (os : List O) :
    Has (aggregate ivs aggs) B os ↔ ∃ x y, os = x ++ [y] ∧ Has aggs B x ∧ Has ivs B y := by
  unfold aggregate
  cases aggs with
  | nil => simp [Has_nil]
  | cons a as =>
    cases ivs with
    | nil => simp [Has_nil]
    | cons b bs => exact aggLoop_has a as b bs ha hb B hB os

theorem aggregate_good (ivs : List (Iv T O)) (aggs : List (Iv T (List O)))
    (ha : Good0 aggs) (hb : Good0 ivs) : Good0 (aggregate ivs aggs) := by
  unfold aggregate
  cases aggs with
  | nil => exact ⟨by simp, by simp⟩
  | cons a as =>
    cases ivs with
    | nil => exact ⟨by simp, by simp⟩
    | cons b bs => exact (aggLoop_good a as b bs ha hb).1

end Verif.Intervals
