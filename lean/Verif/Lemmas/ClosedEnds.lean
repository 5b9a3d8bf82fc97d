/-
Components at the ends of the validity intervals (for C75 to C78).
-/
import Verif.Lemmas.ModelEval

namespace Verif.ModelEval

open Verif.Spec Verif.Intervals

variable {T S : Type} [LinearOrder T] [BoundedOrder T]

/-- A closed interval holding the time. -/
def At {O : Type} (t : T) (c : Iv T O) : Prop := c.s ≤ t ∧ t ≤ c.e

/-- A cut next to `t` inside an interval of positive length holding it. -/
theorem cut_beside {O : Type} {t : T} {c : Iv T O} (h : At t c) (hl : c.s < c.e) :
    ∃ B, IsCut B ∧ (B c.s ∧ ¬ B c.e) ∧ ∀ x y : T, B x → ¬ B y → x ≤ t ∧ t ≤ y := by
  by_cases he : t = c.e
  · subst he
    exact ⟨fun x => x < c.e, isCut_lt _, ⟨hl, lt_irrefl _⟩, fun x y h1 h2 => ⟨le_of_lt h1, not_lt.mp h2⟩⟩
  · exact ⟨fun x => x ≤ t, isCut_le _, ⟨h.1, not_le.mpr (lt_of_le_of_ne h.2 he)⟩,
      fun x y h1 h2 => ⟨h1, (not_le.mp h2).le⟩⟩

theorem nonOverlapping_at {O : Type} (ivs : List (Iv T O)) (t : T) :
    (∀ c ∈ (nonOverlapping ivs).getD [], At t c → ∃ j ∈ ivs, j.o = c.o ∧ At t j) ∧
    ∀ j ∈ ivs, At t j → j.s < j.e → ∃ c ∈ (nonOverlapping ivs).getD [], At t c := by
  obtain ⟨res, h1, hg, hh, -⟩ := nonOverlapping_spec ivs
  rw [h1]
  simp only [Option.getD_some]
  constructor
  · intro c hc hat
    obtain ⟨B, hB, h2, h3⟩ := cut_beside hat (hg.1 c hc)
    have : Has res B c.o := ⟨c, hc, rfl, h2.1, h2.2⟩
    rw [hh _ hB] at this
    obtain ⟨j, hj, ho, a, b⟩ := firstCovers_has _ _ _ this
    exact ⟨j, hj, ho, h3 _ _ a b⟩
  · intro j hj hat hl
    obtain ⟨B, hB, h2, h3⟩ := cut_beside hat hl
    obtain ⟨o, ho⟩ := has_firstCovers ivs B ⟨j.o, j, hj, rfl, h2.1, h2.2⟩
    rw [← hh _ hB] at ho
    obtain ⟨c, hc, -, a, b⟩ := ho
    exact ⟨c, hc, h3 _ _ a b⟩

theorem decomposeCombined_at (t : T) : ∀ (items : List (Tree T S)) (aggs : List (Iv T (List (Tree T S)))),
    ∀ c ∈ decomposeCombined items aggs, At t c → ∃ a ∈ aggs, ∃ os, c.o = a.o ++ os ∧
      List.Forall₂ (fun i o => ∃ b ∈ decompose i, b.o = o ∧ At t b) items os := by
  intro items
  suffices ∀ aggs : List (Iv T (List (Tree T S))), ∀ c ∈ decomposeCombined items aggs, At t c → ∃ a ∈ aggs, At t a ∧
      ∃ os, c.o = a.o ++ os ∧ List.Forall₂ (fun i o => ∃ b ∈ decompose i, b.o = o ∧ At t b) items os by
    intro aggs c hc hat
    obtain ⟨a, ha, -, r⟩ := this aggs c hc hat
    exact ⟨a, ha, r⟩
  induction items with
  | nil =>
    intro aggs c hc hat
    simp only [decomposeCombined] at hc
    exact ⟨c, hc, hat, [], by simp, .nil⟩
  | cons i l ih =>
    intro aggs c hc hat
    simp only [decomposeCombined] at hc
    obtain ⟨a, ha, h0, os, h1, h2⟩ := ih _ c hc hat
    generalize hd : decompose i = ivs at ha
    unfold aggregate at ha
    cases aggs with
    | nil => exact absurd ha (by simp)
    | cons a0 as =>
      cases ivs with
      | nil => exact absurd ha (by simp)
      | cons b bs =>
        obtain ⟨a', ha', b', hb', hm⟩ := aggLoop_mem a0 as b bs a ha
        obtain ⟨e1, e2, e3, -, -⟩ := aggHead_mem a' b' a hm
        unfold At at h0
        rw [e1, e2] at h0
        have x1 := le_trans (le_max_left a'.s b'.s) h0.1
        have x2 := le_trans (le_max_right a'.s b'.s) h0.1
        have x3 := le_trans h0.2 (min_le_left a'.e b'.e)
        have x4 := le_trans h0.2 (min_le_right a'.e b'.e)
        exact ⟨a', ha', ⟨x1, x3⟩, b'.o :: os, by rw [h1, e3]; simp,
          .cons ⟨b', by rw [hd]; exact hb', rfl, x2, x4⟩ h2⟩

theorem validAtOne_mem (t : T) : ∀ (items : List (Tree T S)) (L : List S),
    ValidAtOne t items L ↔ ∃ i ∈ items, ValidAt t i L
  | [], L => by simp [ValidAtOne]
  | j :: l, L => by simp [ValidAtOne, validAtOne_mem t l L]

theorem validAtAll_of (t : T) (items os : List (Tree T S))
    (h : ∀ i ∈ items, ∀ c ∈ decompose i, At t c → ValidAt t i (leaves c.o))
    (ho : List.Forall₂ (fun i o => ∃ b ∈ decompose i, b.o = o ∧ At t b) items os) :
    ValidAtAll t items (leavesAll os) := by
  induction ho with
  | nil => rfl
  | @cons i o items os hb _ ih =>
    obtain ⟨b, hb, rfl, hat⟩ := hb
    exact ⟨leaves b.o, leavesAll os, rfl, h i (by simp) b hb hat, ih (fun j hj => h j (by simp [hj]))⟩

mutual
/-- The sets of a component holding the time are valid at that time. -/
theorem component_valid (t : T) : ∀ (tree : Tree T S), ∀ c ∈ decompose tree, At t c → ValidAt t tree (leaves c.o)
  | .sparse vs ve s => by
    intro c hc hat
    simp only [decompose, List.mem_singleton] at hc
    subst hc
    exact ⟨hat, rfl⟩
  | .composed items => by
    intro c hc hat
    simp only [decompose, decomposeComposed_mem] at hc
    obtain ⟨i, hi, hc⟩ := hc
    obtain ⟨j, hj, ho, hat⟩ := (nonOverlapping_at _ t).1 c hc hat
    rw [← ho]
    exact (validAtOne_mem t items _).mpr ⟨i, hi, components_valid t items i hi j hj hat⟩
  | .combined items => by
    intro c hc hat
    simp only [decompose, List.mem_map] at hc
    obtain ⟨a, ha, rfl⟩ := hc
    obtain ⟨x, hx, os, h1, h2⟩ := decomposeCombined_at t items _ a ha hat
    rw [List.mem_singleton.mp hx] at h1
    simp only [List.nil_append] at h1
    simp only [leaves_mkCombined, h1]
    exact validAtAll_of t items os (components_valid t items) h2

theorem components_valid (t : T) : ∀ (items : List (Tree T S)), ∀ i ∈ items, ∀ c ∈ decompose i, At t c →
    ValidAt t i (leaves c.o)
  | [] => by simp
  | j :: l => by
    intro i hi
    rcases List.mem_cons.mp hi with e | hi
    · rw [e]
      exact component_valid t j
    · exact components_valid t l i hi
end

/-- The pairs of intervals touching at a time are found. -/
theorem aggLoop_at {O : Type} (t : T) (a : Iv T (List O)) (as : List (Iv T (List O))) (b : Iv T O) (bs : List (Iv T O))
    (ha : Good0 (a :: as)) (hb : Good0 (b :: bs)) (h1 : ∃ x ∈ a :: as, At t x) (h2 : ∃ y ∈ b :: bs, At t y) :
    ∃ i ∈ aggLoop a as b bs, At t i := by
  have hpa := List.pairwise_cons.mp ha.2
  have hpb := List.pairwise_cons.mp hb.2
  have haa : a.s ≤ a.e := ha.1 a (by simp)
  have hbb : b.s ≤ b.e := hb.1 b (by simp)
  have hmem : ∀ i ∈ aggHead a b, i ∈ aggLoop a as b bs := by
    intro i hi
    rw [aggLoop_unfold]
    split
    · cases bs with
      | nil => exact hi
      | cons => exact List.mem_append_left _ hi
    · cases as with
      | nil => exact hi
      | cons => exact List.mem_append_left _ hi
  by_cases hboth : At t a ∧ At t b
  · refine ⟨⟨max a.s b.s, min a.e b.e, a.o ++ [b.o]⟩, hmem _ ?_, max_le hboth.1.1 hboth.2.1, le_min hboth.1.2 hboth.2.2⟩
    unfold aggHead intersect
    rw [if_pos ⟨le_trans hboth.1.1 hboth.2.2, le_trans hboth.2.1 hboth.1.2⟩]
    simp
  -- one of the heads ends not later than `t`
  have hA : ¬ At t a → a.e ≤ t := by
    intro hn
    obtain ⟨x, hx, hat⟩ := h1
    rcases List.mem_cons.mp hx with rfl | hx
    · exact absurd hat hn
    · exact le_trans (hpa.1 x hx) hat.1
  have hB : ¬ At t b → b.e ≤ t := by
    intro hn
    obtain ⟨x, hx, hat⟩ := h2
    rcases List.mem_cons.mp hx with rfl | hx
    · exact absurd hat hn
    · exact le_trans (hpb.1 x hx) hat.1
  rw [aggLoop_unfold]
  split
  · rename_i hlt
    have hnb : ¬ At t b := by
      intro hb'
      have hna : ¬ At t a := fun h => hboth ⟨h, hb'⟩
      exact absurd (lt_of_le_of_lt hb'.2 hlt) (not_lt.mpr (hA hna))
    obtain ⟨y, hy, hat⟩ := h2
    rcases List.mem_cons.mp hy with rfl | hy
    · exact absurd hat hnb
    cases bs with
    | nil => simp at hy
    | cons b' bs' =>
      obtain ⟨i, hi, h⟩ := aggLoop_at t a as b' bs' ha ⟨fun i hi => hb.1 i (List.mem_cons_of_mem _ hi), hpb.2⟩ h1 ⟨y, hy, hat⟩
      exact ⟨i, List.mem_append_right _ hi, h⟩
  · rename_i hlt
    have hle : a.e ≤ b.e := not_lt.mp hlt
    have hna : ¬ At t a := by
      intro ha'
      have hnb : ¬ At t b := fun h => hboth ⟨ha', h⟩
      have h3 := hB hnb
      have h4 : t = b.e := le_antisymm (le_trans ha'.2 hle) h3
      exact hnb ⟨by rw [h4]; exact hbb, h4.le⟩
    obtain ⟨x, hx, hat⟩ := h1
    rcases List.mem_cons.mp hx with rfl | hx
    · exact absurd hat hna
    cases as with
    | nil => simp at hx
    | cons a' as' =>
      obtain ⟨i, hi, h⟩ := aggLoop_at t a' as' b bs ⟨fun i hi => ha.1 i (List.mem_cons_of_mem _ hi), hpa.2⟩ hb ⟨x, hx, hat⟩ h2
      exact ⟨i, List.mem_append_right _ hi, h⟩
termination_by as.length + bs.length

theorem aggregate_at {O : Type} (t : T) (ivs : List (Iv T O)) (aggs : List (Iv T (List O))) (ha : Good0 aggs)
    (hb : Good0 ivs) (h1 : ∃ x ∈ aggs, At t x) (h2 : ∃ y ∈ ivs, At t y) : ∃ i ∈ aggregate ivs aggs, At t i := by
  cases aggs with
  | nil => obtain ⟨x, hx, -⟩ := h1; simp at hx
  | cons a as =>
    cases ivs with
    | nil => obtain ⟨x, hx, -⟩ := h2; simp at hx
    | cons b bs => exact aggLoop_at t a as b bs ha hb h1 h2

theorem decomposeCombined_covers (t : T) : ∀ (items : List (Tree T S)) (aggs : List (Iv T (List (Tree T S)))),
    Good0 aggs → (∀ i ∈ items, Good0 (decompose i)) → (∃ a ∈ aggs, At t a) →
    (∀ i ∈ items, ∃ b ∈ decompose i, At t b) → ∃ c ∈ decomposeCombined items aggs, At t c := by
  intro items
  induction items with
  | nil => intro aggs _ _ h _; simpa [decomposeCombined] using h
  | cons i l ih =>
    intro aggs hg hi h1 h2
    simp only [decomposeCombined]
    have hgi := hi i (by simp)
    refine ih _ ?_ (fun j hj => hi j (by simp [hj])) (aggregate_at t _ aggs hg hgi h1 (h2 i (by simp)))
      (fun j hj => h2 j (by simp [hj]))
    generalize decompose i = ivs at hgi
    cases aggs with
    | nil => simp [aggregate, Good0]
    | cons a as =>
      cases ivs with
      | nil => simp [aggregate, Good0]
      | cons b bs => exact (aggLoop_good a as b bs hg hgi).1

theorem lasting_components {tree : Tree T S} (h : Lasting tree) : ∀ c ∈ decompose tree, c.s < c.e := by
  cases h with
  | sparse vs ve s h => simpa [decompose] using h
  | composed items h =>
    intro c hc
    simp only [decompose, decomposeComposed_mem] at hc
    obtain ⟨i, -, hc⟩ := hc
    exact (good_getD _).1 c hc

theorem composed_covers (t : T) (items : List (Tree T S)) (hl : ∀ i ∈ items, Lasting i)
    (h : ∀ i ∈ items, ∀ L, ValidAt t i L → ∃ c ∈ decompose i, At t c) (L : List S) (hv : ValidAt t (.composed items) L) :
    ∃ c ∈ decompose (.composed items), At t c := by
  obtain ⟨i, hi, hv⟩ := (validAtOne_mem t items L).mp hv
  obtain ⟨j, hj, hat⟩ := h i hi L hv
  obtain ⟨c, hc, hat⟩ := (nonOverlapping_at _ t).2 j hj hat (lasting_components (hl i hi) j hj)
  exact ⟨c, by simp only [decompose, decomposeComposed_mem]; exact ⟨i, hi, hc⟩, hat⟩

theorem lasting_covers (t : T) {tree : Tree T S} (h : Lasting tree) : ∀ L, ValidAt t tree L →
    ∃ c ∈ decompose tree, At t c := by
  induction h with
  | sparse vs ve s _ =>
    rintro L ⟨h, -⟩
    exact ⟨_, List.mem_singleton_self _, h⟩
  | composed items hl ih => exact composed_covers t items hl ih

theorem validAtAll_each (t : T) : ∀ (items : List (Tree T S)) (L : List S), ValidAtAll t items L →
    ∀ i ∈ items, ∃ L', ValidAt t i L'
  | [], _, _ => by simp
  | j :: l, _, ⟨L1, L2, _, h1, h2⟩ => by
    intro i hi
    rcases List.mem_cons.mp hi with rfl | hi
    · exact ⟨L1, h1⟩
    · exact validAtAll_each t l L2 h2 i hi

theorem ordered_regular {tree : Tree T S} (h : Ordered tree) : Regular tree := by
  induction h with
  | sparse vs ve s _ => exact .sparse _ _ _
  | combined items hne ho _ => exact .combined items hne ho
  | composed items _ _ ih => exact .composed items ih

/-- Where sets of the object are valid a component holds the time. -/
theorem filled_covers (t : T) {tree : Tree T S} (h : NoInstants tree) : Regular tree → ∀ L, ValidAt t tree L →
    ∃ c ∈ decompose tree, At t c := by
  induction h with
  | sparse vs ve s =>
    rintro - L ⟨h, -⟩
    exact ⟨_, List.mem_singleton_self _, h⟩
  | composed items hl => exact fun _ => composed_covers t items hl (fun i hi => lasting_covers t (hl i hi))
  | combined items _ ih =>
    intro hr L hv
    cases hr with
    | combined _ _ ho =>
      obtain ⟨c, hc, hat⟩ := decomposeCombined_covers t items [⟨⊥, ⊤, []⟩] initial_good (fun i hi => ordered_good (ho i hi))
        ⟨_, List.mem_singleton_self _, bot_le, le_top⟩ (fun i hi => by
          obtain ⟨L', hL'⟩ := validAtAll_each t items L hv i hi
          exact ih i hi (ordered_regular (ho i hi)) L' hL')
      exact ⟨⟨c.s, c.e, mkCombined c.o⟩, by simp only [decompose]; exact List.mem_map.mpr ⟨c, hc, rfl⟩, hat⟩

end Verif.ModelEval
