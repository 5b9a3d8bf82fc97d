/-
Lemmas for the evaluation over time.
-/
import Verif.Spec.Active
import Verif.Lemmas.Aggregate

set_option linter.unusedSectionVars false

namespace Verif.ModelEval

open Verif.Intervals Verif.Spec

section eval
variable {T L R : Type} [LinearOrder T]

theorem evalScalar_eq (comps : List (Comp T L R)) (t : T) (locs : List L) :
    evalScalar comps t locs =
      locs.map (fun l => (comps.find? (fun c => c.isValid t)).map (fun c => c.ev t l)) := by
  induction comps with
  | nil => simp [evalScalar]
  | cons c rest ih =>
    unfold evalScalar
    by_cases h : c.isValid t = true
    · simp [h]
    · simp [h, ih]

theorem put_pick (f : T × L → R) (g : T × L → Option R) (b : T × L → Bool) :
    ∀ pts : List (T × L), put (pts.map b) ((pick (pts.map b) pts).map f) (pts.map g) =
      pts.map (fun p => if b p then some (f p) else g p) := by
  intro pts
  induction pts with
  | nil => rfl
  | cons p l ih =>
    by_cases h : b p = true
    · simp [h, pick, put, ih]
    · simp [h, pick, put, ih]

theorem evalArray_eq (comps : List (Comp T L R)) (pts : List (T × L))
    (hev : ∀ c ∈ comps, ∀ ps, c.evs ps = ps.map (fun p => c.ev p.1 p.2)) :
    evalArray comps pts = pts.map (fun p =>
      (comps.reverse.find? (fun c => c.isValid p.1)).map (fun c => c.ev p.1 p.2)) := by
  suffices h : ∀ (g : T × L → Option R), comps.foldl (fun result c =>
      put (pts.map (fun p => c.isValid p.1))
        (c.evs (pick (pts.map (fun p => c.isValid p.1)) pts)) result) (pts.map g) =
      pts.map (fun p => ((comps.reverse.find? (fun c => c.isValid p.1)).map
        (fun c => c.ev p.1 p.2)).or (g p)) by
    have := h (fun _ => none)
    unfold evalArray
    simpa using this
  induction comps with
  | nil => intro g; simp
  | cons c rest ih =>
    intro g
    rw [List.foldl_cons, hev c (by simp), put_pick (fun p => c.ev p.1 p.2) g,
      ih (fun c hc => hev c (by simp [hc]))]
    apply List.map_congr_left
    intro p _
    rw [List.reverse_cons, List.find?_append]
    cases hf : rest.reverse.find? (fun c => c.isValid p.1) with
    | some c' => simp
    | none =>
      by_cases hv : c.isValid p.1 = true
      · simp [hv]
      · simp [hv]

end eval

section ends
variable {T O : Type} [LinearOrder T]

/-- The interval ends satisfy a predicate. -/
def EndsIn (P : T → Prop) (l : List (Iv T O)) : Prop := ∀ i ∈ l, P i.s ∧ P i.e

theorem insertAt_ends (P : T → Prop) (acc : List (Iv T O)) (idx : Nat) (s e : T) (o : O)
    (h : EndsIn P acc) (hs : P s) (he : P e) : EndsIn P (insertAt acc idx s e o) := by
  intro i hi
  unfold insertAt at hi
  rcases List.mem_append.mp hi with hi | hi
  · exact h i (List.mem_of_mem_take hi)
  · rcases List.mem_cons.mp hi with rfl | hi
    · exact ⟨hs, he⟩
    · exact h i (List.mem_of_mem_drop hi)

theorem loop_ends (P : T → Prop) (en : T) (o : O) (he : P en) : ∀ (fuel : Nat)
    (acc : List (Iv T O)) (st : T) (res : List (Iv T O)), EndsIn P acc → P st →
    loop en o fuel acc st = some res → EndsIn P res := by
  intro fuel
  induction fuel with
  | zero => intro acc st res _ _ h; simp [loop] at h
  | succ fuel ih =>
    intro acc st res ha hs h
    unfold loop at h
    simp only at h
    split at h
    · split at h
      · split at h
        · cases h; exact insertAt_ends P _ _ _ _ _ ha hs he
        · split at h
          · cases h
          · split at h
            · cases h; exact insertAt_ends P _ _ _ _ _ ha hs he
            · cases h; exact ha
      · split at h
        · cases h
        · rename_i cur hcur
          have hc := ha cur (List.mem_of_getElem? hcur)
          split at h
          · split at h
            · cases h; exact insertAt_ends P _ _ _ _ _ ha hs he
            · split at h
              · cases h
              · rename_i nxt hnxt
                have hi := insertAt_ends P acc (bisectRightEnds acc st) st cur.s o ha hs hc.1
                exact ih _ _ _ hi (hi nxt (List.mem_of_getElem? hnxt)).2 h
          · exact ih _ _ _ ha hc.2 h
    · cases h; exact ha

theorem foldlM_ends (P : T → Prop) : ∀ (ivs acc res : List (Iv T O)), EndsIn P ivs → EndsIn P acc →
    ivs.foldlM addInterval acc = some res → EndsIn P res := by
  intro ivs
  induction ivs with
  | nil => intro acc res _ ha h; simp at h; subst h; exact ha
  | cons i l ih =>
    intro acc res hi ha h
    rw [List.foldlM_cons, Option.bind_eq_bind, Option.bind_eq_some_iff] at h
    obtain ⟨a, h1, h2⟩ := h
    refine ih a res (fun j hj => hi j (by simp [hj])) ?_ h2
    unfold addInterval at h1
    split at h1
    · cases h1; exact ha
    · exact loop_ends P _ _ (hi i (by simp)).2 _ _ _ _ ha (hi i (by simp)).1 h1

theorem aggregate_ends (P : T → Prop) (ivs : List (Iv T O)) (aggs : List (Iv T (List O)))
    (h1 : EndsIn P ivs) (h2 : EndsIn P aggs) : EndsIn P (aggregate ivs aggs) := by
  intro i hi
  unfold aggregate at hi
  cases aggs with
  | nil => exact absurd hi (by simp)
  | cons a as =>
    cases ivs with
    | nil => exact absurd hi (by simp)
    | cons b bs =>
      obtain ⟨a', ha', b', hb', hm⟩ := aggLoop_mem a as b bs i hi
      obtain ⟨e1, e2, -, -, -⟩ := aggHead_mem a' b' i hm
      rw [e1, e2]
      constructor
      · rcases le_total b'.s a'.s with h | h <;> [rw [max_eq_left h]; rw [max_eq_right h]]
        · exact (h2 a' ha').1
        · exact (h1 b' hb').1
      · rcases le_total a'.e b'.e with h | h <;> [rw [min_eq_left h]; rw [min_eq_right h]]
        · exact (h2 a' ha').2
        · exact (h1 b' hb').2

end ends

section tree
variable {T S : Type} [LinearOrder T] [BoundedOrder T]

/-- The result of `get_nonoverlapping_intervals`. -/
theorem nonOverlapping_spec {O : Type} (ivs : List (Iv T O)) :
    ∃ res, nonOverlapping ivs = some res ∧ Good res ∧
      (∀ B, IsCut B → ∀ o, (Has res B o ↔ FirstCovers B o (ivs.map Iv.tup))) ∧
      ∀ P : T → Prop, EndsIn P ivs → EndsIn P res := by
  obtain ⟨res, h1, h2, h3⟩ := foldlM_spec ivs [] ⟨by simp, by simp⟩
  refine ⟨res, h1, h2, ?_, ?_⟩
  · intro B hB o
    rw [h3 B hB o]
    simp [Has_nil]
  · intro P hP
    exact foldlM_ends P ivs [] res hP (by intro i hi; simp at hi) h1

theorem firstCovers_has {O : Type} (l : List (Iv T O)) (B : T → Prop) (o : O)
    (h : FirstCovers B o (l.map Iv.tup)) : Has l B o := by
  induction l with
  | nil => cases h
  | cons i l ih =>
    simp only [List.map_cons, Iv.tup] at h
    rw [Has_cons]
    cases h with
    | here _ _ _ a b => exact Or.inl ⟨rfl, a, b⟩
    | there _ _ _ _ _ b => exact Or.inr (ih b)

theorem firstCovers_cons {O : Type} (i : Iv T O) (l : List (Iv T O)) (B : T → Prop) (o : O) :
    FirstCovers B o ((i :: l).map Iv.tup) ↔
      (i.o = o ∧ B i.s ∧ ¬ B i.e) ∨ (¬ (B i.s ∧ ¬ B i.e) ∧ FirstCovers B o (l.map Iv.tup)) := by
  simp only [List.map_cons, Iv.tup]
  constructor
  · intro h
    cases h with
    | here _ _ _ a b => exact Or.inl ⟨rfl, a, b⟩
    | there _ _ _ _ a b => exact Or.inr ⟨a, b⟩
  · rintro (⟨rfl, a, b⟩ | ⟨a, b⟩)
    · exact .here _ _ _ a b
    · exact .there _ _ _ _ a b

theorem firstCovers_append {O : Type} (l m : List (Iv T O)) (B : T → Prop) (o : O) :
    FirstCovers B o ((l ++ m).map Iv.tup) ↔
      FirstCovers B o (l.map Iv.tup) ∨ ((¬ ∃ p, Has l B p) ∧ FirstCovers B o (m.map Iv.tup)) := by
  induction l with
  | nil =>
    simp only [List.nil_append, List.map_nil, Has_nil, exists_false, not_false_eq_true, true_and]
    exact ⟨Or.inr, fun h => h.resolve_left (by intro h; cases h)⟩
  | cons i l ih =>
    rw [List.cons_append, firstCovers_cons, firstCovers_cons, ih]
    simp only [Has_cons]
    constructor
    · rintro (h | ⟨h, h' | ⟨h1, h2⟩⟩)
      · exact Or.inl (Or.inl h)
      · exact Or.inl (Or.inr ⟨h, h'⟩)
      · refine Or.inr ⟨?_, h2⟩
        rintro ⟨p, h3 | h3⟩
        · exact h h3.2
        · exact h1 ⟨p, h3⟩
    · rintro ((h | h) | ⟨h1, h2⟩)
      · exact Or.inl h
      · exact Or.inr ⟨h.1, Or.inl h.2⟩
      · refine Or.inr ⟨fun h => h1 ⟨i.o, Or.inl ⟨rfl, h⟩⟩, Or.inr ⟨?_, h2⟩⟩
        rintro ⟨p, h3⟩
        exact h1 ⟨p, Or.inr h3⟩

/-- Someone holding the cut implies a first one. -/
theorem has_firstCovers {O : Type} (l : List (Iv T O)) (B : T → Prop) (h : ∃ o, Has l B o) :
    ∃ o, FirstCovers B o (l.map Iv.tup) := by
  induction l with
  | nil => obtain ⟨o, h⟩ := h; simp [Has_nil] at h
  | cons i l ih =>
    by_cases hi : B i.s ∧ ¬ B i.e
    · exact ⟨i.o, (firstCovers_cons _ _ _ _).mpr (Or.inl ⟨rfl, hi⟩)⟩
    · obtain ⟨o, h⟩ := h
      rw [Has_cons] at h
      obtain ⟨o', h'⟩ := ih ⟨o, h.resolve_left (fun h => hi h.2)⟩
      exact ⟨o', (firstCovers_cons _ _ _ _).mpr (Or.inr ⟨hi, h'⟩)⟩

/-- In a sorted list at most one interval holds a cut. -/
theorem good0_firstCovers {O : Type} (l : List (Iv T O)) (hl : Good0 l) (B : T → Prop)
    (hB : IsCut B) (o : O) : FirstCovers B o (l.map Iv.tup) ↔ Has l B o := by
  constructor
  · exact firstCovers_has l B o
  · induction l with
    | nil => intro h; simp [Has_nil] at h
    | cons i l ih =>
      intro h
      rw [Has_cons] at h
      rw [firstCovers_cons]
      rcases h with h | h
      · exact Or.inl h
      · have hp := List.pairwise_cons.mp hl.2
        refine Or.inr ⟨?_, ih ⟨fun j hj => hl.1 j (by simp [hj]), hp.2⟩ h⟩
        rintro ⟨-, h2⟩
        obtain ⟨j, hj, -, hs, -⟩ := h
        exact h2 (hB _ _ (hp.1 j hj) hs)

theorem leaves_mkCombined (os : List (Tree T S)) : leaves (mkCombined os) = leavesAll os := by
  unfold mkCombined
  split
  · simp [leavesAll]
  · simp [leaves]

/-- First member whose parts hold the cut, in terms of the sets. -/
def FirstLeaves (B : T → Prop) (l : List (Iv T (Tree T S))) (L : List S) : Prop :=
  ∃ o, FirstCovers B o (l.map Iv.tup) ∧ leaves o = L

theorem decomposeCombined_spec : ∀ (items : List (Tree T S)) (aggs : List (Iv T (List (Tree T S)))),
    Good0 aggs → (∀ i ∈ items, Good0 (decompose i)) →
    Good0 (decomposeCombined items aggs) ∧
    ∀ B, IsCut B → ∀ os, Has (decomposeCombined items aggs) B os ↔
      ∃ x ys, os = x ++ ys ∧ Has aggs B x ∧ List.Forall₂ (fun i y => Has (decompose i) B y) items ys := by
  intro items
  induction items with
  | nil =>
    intro aggs hg _
    simp only [decomposeCombined]
    refine ⟨hg, ?_⟩
    intro B _ os
    constructor
    · intro h; exact ⟨os, [], by simp, h, .nil⟩
    · rintro ⟨x, ys, rfl, h, h2⟩
      cases h2
      simpa using h
  | cons i l ih =>
    intro aggs hg hi
    simp only [decomposeCombined]
    have hgi := hi i (by simp)
    obtain ⟨g, hh⟩ := ih (aggregate (decompose i) aggs) (aggregate_good _ _ hg hgi)
      (fun j hj => hi j (by simp [hj]))
    refine ⟨g, ?_⟩
    intro B hB os
    rw [hh B hB os]
    constructor
    · rintro ⟨x, ys, rfl, h1, h2⟩
      rw [aggregate_has _ _ hg hgi B hB] at h1
      obtain ⟨x', y, rfl, h3, h4⟩ := h1
      exact ⟨x', y :: ys, by simp, h3, .cons h4 h2⟩
    · rintro ⟨x, ys, rfl, h1, h2⟩
      cases h2 with
      | @cons _ y _ ys h3 h4 =>
        refine ⟨x ++ [y], ys, by simp, ?_, h4⟩
        rw [aggregate_has _ _ hg hgi B hB]
        exact ⟨x, y, rfl, h1, h3⟩

theorem good0_map {O O' : Type} (f : O → O') (l : List (Iv T O)) (h : Good0 l) :
    Good0 (l.map (fun a => (⟨a.s, a.e, f a.o⟩ : Iv T O'))) := by
  refine ⟨?_, ?_⟩
  · intro i hi
    obtain ⟨a, ha, rfl⟩ := List.mem_map.mp hi
    exact h.1 a ha
  · rw [List.pairwise_map]; exact h.2

theorem has_map {O O' : Type} (f : O → O') (l : List (Iv T O)) (B : T → Prop) (o : O') :
    Has (l.map (fun a => (⟨a.s, a.e, f a.o⟩ : Iv T O'))) B o ↔ ∃ a, f a = o ∧ Has l B a := by
  simp only [Has, List.mem_map]
  constructor
  · rintro ⟨_, ⟨a, ha, rfl⟩, h1, h2⟩
    exact ⟨a.o, h1, a, ha, rfl, h2⟩
  · rintro ⟨_, rfl, a, ha, rfl, h2⟩
    exact ⟨_, ⟨a, ha, rfl⟩, rfl, h2⟩

/-- The components lie in the hull of the validities of the sets. -/
def InHull (t : Tree T S) (l : List (Iv T (Tree T S))) : Prop :=
  ∀ c ∈ l, (∃ p ∈ spans t, p.1 ≤ c.s) ∧ (∃ p ∈ spans t, c.e ≤ p.2)

theorem spansAll_mem (items : List (Tree T S)) (p : T × T) :
    p ∈ spansAll items ↔ ∃ i ∈ items, p ∈ spans i := by
  induction items with
  | nil => simp [spansAll]
  | cons i l ih => simp [spansAll, ih]

theorem decomposeComposed_mem (items : List (Tree T S)) (c : Iv T (Tree T S)) :
    c ∈ decomposeComposed items ↔
      ∃ i ∈ items, c ∈ (nonOverlapping (decompose i)).getD [] := by
  induction items with
  | nil => simp [decomposeComposed]
  | cons i l ih => simp [decomposeComposed, ih]

theorem nonOverlapping_hull (t : Tree T S) (h : InHull t (decompose t)) :
    InHull t ((nonOverlapping (decompose t)).getD []) := by
  obtain ⟨res, h1, hg, hh, -⟩ := nonOverlapping_spec (decompose t)
  rw [h1]
  intro c hc
  simp only [Option.getD_some] at hc
  constructor
  · have : Has res (fun x => x ≤ c.s) c.o := ⟨c, hc, rfl, le_refl _, not_le.mpr (hg.1 c hc)⟩
    rw [hh _ (isCut_le _)] at this
    obtain ⟨j, hj, -, hs, -⟩ := firstCovers_has _ _ _ this
    obtain ⟨⟨p, hp, hp'⟩, -⟩ := h j hj
    exact ⟨p, hp, le_trans hp' hs⟩
  · have : Has res (fun x => x < c.e) c.o := ⟨c, hc, rfl, hg.1 c hc, lt_irrefl _⟩
    rw [hh _ (isCut_lt _)] at this
    obtain ⟨j, hj, -, -, he⟩ := firstCovers_has _ _ _ this
    obtain ⟨-, p, hp, hp'⟩ := h j hj
    exact ⟨p, hp, le_trans (not_lt.mp he) hp'⟩

theorem decomposeCombined_mem : ∀ (items : List (Tree T S)) (aggs : List (Iv T (List (Tree T S)))),
    (∀ c ∈ decomposeCombined items aggs, c ∈ aggs ∨
      ∃ i ∈ items, ∃ b ∈ decompose i, b.s ≤ c.s ∧ c.e ≤ b.e) ∧
    (items ≠ [] → ∀ c ∈ decomposeCombined items aggs,
      ∃ i ∈ items, ∃ b ∈ decompose i, b.s ≤ c.s ∧ c.e ≤ b.e) := by
  intro items
  induction items with
  | nil => intro aggs; refine ⟨fun c hc => Or.inl (by simpa [decomposeCombined] using hc), by simp⟩
  | cons i l ih =>
    intro aggs
    have key : ∀ c ∈ decomposeCombined (i :: l) aggs,
      ∃ j ∈ i :: l, ∃ b ∈ decompose j, b.s ≤ c.s ∧ c.e ≤ b.e := by
      intro c hc
      simp only [decomposeCombined] at hc
      rcases (ih (aggregate (decompose i) aggs)).1 c hc with h | ⟨j, hj, r⟩
      · generalize hd : decompose i = ivs at h
        unfold aggregate at h
        cases aggs with
        | nil => exact absurd h (by simp)
        | cons a as =>
          cases ivs with
          | nil => exact absurd h (by simp)
          | cons b bs =>
            obtain ⟨a', ha', b', hb', hm⟩ := aggLoop_mem a as b bs c h
            obtain ⟨e1, e2, -, -, -⟩ := aggHead_mem a' b' c hm
            exact ⟨i, by simp, b', by rw [hd]; exact hb', by rw [e1]; exact le_max_right _ _,
              by rw [e2]; exact min_le_right _ _⟩
      · exact ⟨j, by simp [hj], r⟩
    exact ⟨fun c hc => Or.inr (key c hc), fun _ => key⟩

/-- Objects whose combined parts are not empty. -/
theorem combined_hull (items : List (Tree T S)) (hne : items ≠ [])
    (h : ∀ i ∈ items, InHull i (decompose i)) :
    InHull (.combined items) (decompose (.combined items)) := by
  intro c hc
  simp only [decompose, List.mem_map] at hc
  obtain ⟨a, ha, rfl⟩ := hc
  obtain ⟨i, hi, b, hb, h1, h2⟩ := (decomposeCombined_mem items _).2 hne a ha
  obtain ⟨⟨p, hp, hp'⟩, q, hq, hq'⟩ := h i hi b hb
  simp only [spans, spansAll_mem]
  exact ⟨⟨p, ⟨i, hi, hp⟩, le_trans hp' h1⟩, q, ⟨i, hi, hq⟩, le_trans h2 hq'⟩

theorem composed_hull (items : List (Tree T S)) (h : ∀ i ∈ items, InHull i (decompose i)) :
    InHull (.composed items) (decompose (.composed items)) := by
  intro c hc
  simp only [decompose] at hc
  rw [decomposeComposed_mem] at hc
  obtain ⟨i, hi, hc⟩ := hc
  obtain ⟨⟨p, hp, hp'⟩, q, hq, hq'⟩ := nonOverlapping_hull i (h i hi) c hc
  simp only [spans, spansAll_mem]
  exact ⟨⟨p, ⟨i, hi, hp⟩, hp'⟩, q, ⟨i, hi, hq⟩, hq'⟩

theorem sparse_hull (vs ve : T) (s : S) :
    InHull (.sparse vs ve s) (decompose (.sparse vs ve s)) := by
  intro c hc
  simp only [decompose, List.mem_singleton] at hc
  subst hc
  simp [spans]

theorem ordered_hull {t : Tree T S} (h : Ordered t) : InHull t (decompose t) := by
  induction h with
  | sparse vs ve s _ => exact sparse_hull vs ve s
  | combined items hne _ ih => exact combined_hull items hne ih
  | composed items _ _ ih => exact composed_hull items ih

theorem good_getD {O : Type} (ivs : List (Iv T O)) : Good ((nonOverlapping ivs).getD []) := by
  obtain ⟨res, h1, h2, -, -⟩ := nonOverlapping_spec ivs
  rw [h1]; exact h2

theorem initial_good : Good0 ([⟨⊥, ⊤, []⟩] : List (Iv T (List (Tree T S)))) := ⟨by simp, by simp⟩

/-- Ordered objects have sorted components. -/
theorem ordered_good {t : Tree T S} (h : Ordered t) : Good0 (decompose t) := by
  induction h with
  | sparse vs ve s h => simp [decompose, Good0, h]
  | combined items hne _ ih =>
    simp only [decompose]
    exact good0_map _ _ (decomposeCombined_spec items _ initial_good ih).1
  | composed items ho hp ih =>
    simp only [decompose]
    clear ih
    induction items with
    | nil => simp [decomposeComposed, Good0]
    | cons i l ih =>
      have hp' := List.pairwise_cons.mp hp
      have hl := ih (fun j hj => ho j (by simp [hj])) hp'.2
      have hi := (good_getD (decompose i)).weak
      simp only [decomposeComposed]
      refine ⟨?_, ?_⟩
      · intro c hc
        rcases List.mem_append.mp hc with hc | hc
        · exact hi.1 c hc
        · exact hl.1 c hc
      · rw [List.pairwise_append]
        refine ⟨hi.2, hl.2, ?_⟩
        intro a ha b hb
        obtain ⟨-, q, hq, hq'⟩ := nonOverlapping_hull i (ordered_hull (ho i (by simp))) a ha
        rw [decomposeComposed_mem] at hb
        obtain ⟨j, hj, hb⟩ := hb
        obtain ⟨⟨p, hp, hp''⟩, -⟩ := nonOverlapping_hull j (ordered_hull (ho j (by simp [hj]))) b hb
        exact le_trans hq' (le_trans (hp'.1 j hj q hq p hp) hp'')

theorem activeAll_iff (B : T → Prop) (items : List (Tree T S)) (L : List S) :
    ActiveAll B items L ↔ ∃ Ls, L = Ls.flatten ∧ List.Forall₂ (fun i l => Active B i l) items Ls := by
  induction items generalizing L with
  | nil =>
    simp only [ActiveAll]
    constructor
    · rintro rfl; exact ⟨[], rfl, .nil⟩
    · rintro ⟨Ls, rfl, h⟩; cases h; rfl
  | cons i l ih =>
    simp only [ActiveAll]
    constructor
    · rintro ⟨L1, L2, rfl, h1, h2⟩
      obtain ⟨Ls, rfl, h⟩ := (ih L2).mp h2
      exact ⟨L1 :: Ls, by simp, .cons h1 h⟩
    · rintro ⟨Ls, rfl, h⟩
      cases h with
      | @cons _ L1 _ Ls h1 h2 =>
        exact ⟨L1, Ls.flatten, by simp, h1, (ih _).mpr ⟨Ls, rfl, h2⟩⟩

theorem leavesAll_eq (os : List (Tree T S)) : leavesAll os = (os.map leaves).flatten := by
  induction os with
  | nil => rfl
  | cons o l ih => simp [leavesAll, ih]

theorem forall₂_leaves (B : T → Prop) (items : List (Tree T S)) (L : List (List S))
    (h : ∀ i ∈ items, ∀ l, (∃ o, Has (decompose i) B o ∧ leaves o = l) ↔ Active B i l) :
    (∃ ys, List.Forall₂ (fun i y => Has (decompose i) B y) items ys ∧ ys.map leaves = L) ↔
      List.Forall₂ (fun i l => Active B i l) items L := by
  induction items generalizing L with
  | nil =>
    constructor
    · rintro ⟨ys, h1, rfl⟩; cases h1; exact .nil
    · intro h1; cases h1; exact ⟨[], .nil, rfl⟩
  | cons i l ih =>
    constructor
    · rintro ⟨ys, h1, rfl⟩
      cases h1 with
      | @cons _ y _ ys h1 h2 =>
        rw [List.map_cons]
        exact .cons ((h i (by simp) _).mp ⟨y, h1, rfl⟩)
          ((ih _ (fun j hj => h j (by simp [hj]))).mp ⟨ys, h2, rfl⟩)
    · intro h1
      cases h1 with
      | @cons _ a _ as h1 h2 =>
        obtain ⟨y, hy, rfl⟩ := (h i (by simp) _).mpr h1
        obtain ⟨ys, hys, rfl⟩ := (ih _ (fun j hj => h j (by simp [hj]))).mpr h2
        exact ⟨y :: ys, .cons hy hys, by simp⟩

/-- Combined objects. -/
theorem combined_active (items : List (Tree T S)) (hg : ∀ i ∈ items, Good0 (decompose i))
    (B : T → Prop) (hB : IsCut B) (h0 : B ⊥) (h1 : ¬ B ⊤)
    (h : ∀ i ∈ items, ∀ l, (∃ o, FirstCovers B o ((decompose i).map Iv.tup) ∧ leaves o = l) ↔
      Active B i l) (L : List S) :
    (∃ o, FirstCovers B o ((decompose (.combined items)).map Iv.tup) ∧ leaves o = L) ↔
      Active B (.combined items) L := by
  obtain ⟨g, hh⟩ := decomposeCombined_spec items [⟨⊥, ⊤, []⟩] initial_good hg
  simp only [decompose, Active, activeAll_iff]
  have h' : ∀ i ∈ items, ∀ l, (∃ o, Has (decompose i) B o ∧ leaves o = l) ↔ Active B i l := by
    intro i hi l
    rw [← h i hi l]
    simp only [good0_firstCovers _ (hg i hi) B hB]
  simp only [good0_firstCovers _ (good0_map mkCombined _ g) B hB, has_map, hh B hB]
  constructor
  · rintro ⟨o, ⟨a, rfl, x, ys, rfl, hx, hys⟩, rfl⟩
    rw [Has_cons] at hx
    simp only [Has_nil, or_false] at hx
    obtain ⟨rfl, -⟩ := hx
    rw [leaves_mkCombined, List.nil_append, leavesAll_eq]
    exact ⟨ys.map leaves, rfl, (forall₂_leaves B items _ h').mp ⟨ys, hys, rfl⟩⟩
  · rintro ⟨Ls, rfl, hL⟩
    obtain ⟨ys, hys, rfl⟩ := (forall₂_leaves B items _ h').mpr hL
    refine ⟨mkCombined ys, ⟨ys, rfl, [], ys, rfl, ?_, hys⟩, ?_⟩
    · rw [Has_cons]; exact Or.inl ⟨rfl, h0, h1⟩
    · rw [leaves_mkCombined, leavesAll_eq]

/-- Composed objects. -/
theorem composed_active (items : List (Tree T S)) (B : T → Prop) (hB : IsCut B)
    (h : ∀ i ∈ items, ∀ l, (∃ o, FirstCovers B o ((decompose i).map Iv.tup) ∧ leaves o = l) ↔
      Active B i l) (L : List S) :
    (∃ o, FirstCovers B o ((decompose (.composed items)).map Iv.tup) ∧ leaves o = L) ↔
      Active B (.composed items) L := by
  simp only [decompose, Active]
  induction items with
  | nil =>
    simp only [decomposeComposed, ActiveFirst, List.map_nil, iff_false]
    rintro ⟨o, h, -⟩; cases h
  | cons i l ih =>
    have ih := ih (fun j hj => h j (by simp [hj]))
    have hi := h i (by simp)
    obtain ⟨res, hr, hg, hh, -⟩ := nonOverlapping_spec (decompose i)
    simp only [decomposeComposed, ActiveFirst, hr, Option.getD_some, firstCovers_append,
      good0_firstCovers res hg.weak B hB, hh B hB, ← ih, ← hi]
    constructor
    · rintro ⟨o, h1 | ⟨h1, h2⟩, rfl⟩
      · exact Or.inl ⟨o, h1, rfl⟩
      · refine Or.inr ⟨?_, o, h2, rfl⟩
        rintro L' ⟨p, hp, -⟩
        exact h1 ⟨p, hp⟩
    · rintro (⟨o, h1, rfl⟩ | ⟨h1, o, h2, rfl⟩)
      · exact ⟨o, Or.inl h1, rfl⟩
      · refine ⟨o, Or.inr ⟨?_, h2⟩, rfl⟩
        rintro ⟨p, hp⟩
        exact h1 _ ⟨p, hp, rfl⟩

theorem sparse_active (vs ve : T) (s : S) (B : T → Prop) (L : List S) :
    (∃ o, FirstCovers B o ((decompose (.sparse vs ve s)).map Iv.tup) ∧ leaves o = L) ↔
      Active B (.sparse vs ve s) L := by
  simp only [decompose, Active, firstCovers_cons]
  constructor
  · rintro ⟨o, ⟨rfl, h⟩ | ⟨-, h⟩, rfl⟩
    · exact ⟨h, rfl⟩
    · cases h
  · rintro ⟨h, rfl⟩
    exact ⟨_, Or.inl ⟨rfl, h⟩, rfl⟩

theorem ordered_active {t : Tree T S} (ho : Ordered t) (B : T → Prop) (hB : IsCut B) (h0 : B ⊥)
    (h1 : ¬ B ⊤) (L : List S) :
    (∃ o, FirstCovers B o ((decompose t).map Iv.tup) ∧ leaves o = L) ↔ Active B t L := by
  induction ho generalizing L with
  | sparse vs ve s _ => exact sparse_active vs ve s B L
  | combined items hne hi ih =>
    exact combined_active items (fun i h => ordered_good (hi i h)) B hB h0 h1 ih L
  | composed items hi hp ih => exact composed_active items B hB ih L

theorem regular_active {t : Tree T S} (ho : Regular t) (B : T → Prop) (hB : IsCut B) (h0 : B ⊥)
    (h1 : ¬ B ⊤) (L : List S) :
    (∃ o, FirstCovers B o ((decompose t).map Iv.tup) ∧ leaves o = L) ↔ Active B t L := by
  induction ho generalizing L with
  | sparse vs ve s => exact sparse_active vs ve s B L
  | combined items hne hi =>
    exact combined_active items (fun i h => ordered_good (hi i h)) B hB h0 h1
      (fun i h l => ordered_active (hi i h) B hB h0 h1 l) L
  | composed items hi ih => exact composed_active items B hB ih L

/-- Times which are no interval ends of the sets are no interval ends of the
components. -/
theorem decomposeCombined_ends (P : T → Prop) : ∀ (items : List (Tree T S))
    (aggs : List (Iv T (List (Tree T S)))), EndsIn P aggs → (∀ i ∈ items, EndsIn P (decompose i)) →
    EndsIn P (decomposeCombined items aggs) := by
  intro items
  induction items with
  | nil => intro aggs h _; simpa [decomposeCombined] using h
  | cons i l ih =>
    intro aggs h hi
    simp only [decomposeCombined]
    exact ih _ (aggregate_ends P _ _ (hi i (by simp)) h) (fun j hj => hi j (by simp [hj]))

mutual
theorem decompose_ends (P : T → Prop) (h0 : P ⊥) (h1 : P ⊤) : ∀ (t : Tree T S),
    (∀ p ∈ spans t, P p.1 ∧ P p.2) → EndsIn P (decompose t)
  | .sparse vs ve s, h => by
    intro c hc
    simp only [decompose, List.mem_singleton] at hc
    subst hc
    simpa [spans] using h
  | .composed items, h => by
    intro c hc
    simp only [decompose, decomposeComposed_mem] at hc
    obtain ⟨i, hi, hc⟩ := hc
    obtain ⟨res, hr, -, -, hP⟩ := nonOverlapping_spec (decompose i)
    rw [hr] at hc
    exact hP P (decomposeAll_ends P h0 h1 items h i hi) c hc
  | .combined items, h => by
    intro c hc
    simp only [decompose, List.mem_map] at hc
    obtain ⟨a, ha, rfl⟩ := hc
    exact decomposeCombined_ends P items _ (by intro i hi; simp at hi; subst hi; exact ⟨h0, h1⟩)
      (decomposeAll_ends P h0 h1 items h) a ha

theorem decomposeAll_ends (P : T → Prop) (h0 : P ⊥) (h1 : P ⊤) : ∀ (items : List (Tree T S)),
    (∀ p ∈ spansAll items, P p.1 ∧ P p.2) → ∀ i ∈ items, EndsIn P (decompose i)
  | [], _ => by simp
  | j :: l, h => by
    intro i hi
    rcases List.mem_cons.mp hi with e | hi
    · rw [e]
      exact decompose_ends P h0 h1 j (fun p hp => h p (by simp [spansAll, hp]))
    · exact decomposeAll_ends P h0 h1 l (fun p hp => h p (by simp [spansAll, hp])) i hi
end

/-- Away from the ends the closed intervals of the code and the cuts agree. -/
theorem find_firstCovers {O : Type} (l : List (Iv T O)) (t : T) (h : EndsIn (fun x => x ≠ t) l) (o : O) :
    (∃ c, l.find? (fun c => decide (t ≥ c.s) && decide (t ≤ c.e)) = some c ∧ c.o = o) ↔
      FirstCovers (fun x => x ≤ t) o (l.map Iv.tup) := by
  induction l with
  | nil =>
    simp only [List.find?_nil, List.map_nil]
    constructor
    · rintro ⟨c, h, -⟩; cases h
    · intro h; cases h
  | cons i l ih =>
    have ih := ih (fun j hj => h j (by simp [hj]))
    have hi := h i (by simp)
    rw [firstCovers_cons]
    by_cases hc : (decide (t ≥ i.s) && decide (t ≤ i.e)) = true
    · have hc' : i.s ≤ t ∧ ¬ i.e ≤ t := by
        simp only [ge_iff_le, Bool.and_eq_true, decide_eq_true_eq] at hc
        exact ⟨hc.1, not_le.mpr (lt_of_le_of_ne hc.2 (Ne.symm hi.2))⟩
      simp only [List.find?_cons, hc]
      constructor
      · rintro ⟨c, h1, rfl⟩
        cases h1
        exact Or.inl ⟨rfl, hc'⟩
      · rintro (⟨rfl, -⟩ | ⟨h1, -⟩)
        · exact ⟨i, rfl, rfl⟩
        · exact absurd hc' h1
    · have hc' : ¬ (i.s ≤ t ∧ ¬ i.e ≤ t) := by
        rintro ⟨h1, h2⟩
        apply hc
        simp [h1, (not_le.mp h2).le]
      simp only [List.find?_cons, hc]
      rw [ih]
      constructor
      · intro h; exact Or.inr ⟨hc', h⟩
      · rintro (⟨-, h1⟩ | ⟨-, h1⟩)
        · exact absurd h1 hc'
        · exact h1

end tree

end Verif.ModelEval
