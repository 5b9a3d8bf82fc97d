/-
C13 - C15: composed and combined coefficients.
-/
import Verif.Lemmas.Composed
import Verif.Props.Coefficients
import Mathlib.Order.WithBot
import Mathlib.Order.Bounds.Basic

set_option linter.unusedSectionVars false

namespace Verif.Props

open Verif.Coeffs Verif.Spec Verif.Interp

section validity
variable {T : Type} [LinearOrder T] [BoundedOrder T]

/-- C13: an accepted collection has no hole: each time within the reported validity is
within the validity of a member; the reported validity is the hull of the members; the
reported degrees are the maximum and the minimum; all members have the same source. -/
theorem C13_no_hole (items : List (Info T)) (r : Info T) (h : composedInit items = some r) :
    (∀ t, r.vs ≤ t → t ≤ r.ve → ∃ i ∈ items, i.vs ≤ t ∧ t ≤ i.ve) ∧
    (∀ i ∈ items, r.vs ≤ i.vs) ∧ (∃ i ∈ items, i.vs = r.vs) ∧
    (∀ i ∈ items, i.ve ≤ r.ve) ∧ (∃ i ∈ items, i.ve = r.ve) ∧
    (∀ i ∈ items, i.degree ≤ r.degree) ∧ (∃ i ∈ items, i.degree = r.degree) ∧
    (∀ i ∈ items, r.minDegree ≤ i.minDegree) ∧ (∃ i ∈ items, i.minDegree = r.minDegree) ∧
    (∀ i ∈ items, i.isInternal = r.isInternal) := by
  unfold composedInit at h
  split at h
  · exact absurd h (by simp)
  rename_i first tail
  have hmem : ∀ i, i ∈ (first :: tail).mergeSort validityLe ↔ i ∈ first :: tail := by
    intro i; exact (List.mergeSort_perm _ _).mem_iff
  have hsorted := sorted_items (first :: tail)
  split at h
  · exact absurd h (by simp)
  rename_i s rest hsort
  rw [hsort] at hmem hsorted
  simp only [Option.bind_eq_bind, Option.bind_eq_some_iff] at h
  obtain ⟨⟨vs, ve, d, md⟩, h1, h2⟩ := h
  simp only [Option.pure_def, Option.some.injEq] at h2
  subst h2
  have hs : (s :: rest).Pairwise (fun a b => a.vs ≤ b.vs) :=
    hsorted.imp (fun h => validityLe_vs _ _ h)
  rw [List.pairwise_cons] at hs
  -- first pass
  rw [composedLoop, if_neg (not_lt.mpr le_top)] at h1
  split at h1
  · exact absurd h1 (by simp)
  rename_i hint
  rw [min_eq_right le_top, max_eq_right bot_le, max_self, min_self] at h1
  obtain ⟨g1, g2, g3, g4, g5, g6, g7, g8, g9, g10, g11, g12⟩ := composedLoop_sound first.isInternal
    rest s.ve s.vs s.ve s.degree s.minDegree _ h1 (fun t => s.vs ≤ t ∧ t ≤ s.ve) (le_refl _)
    (fun t a b => ⟨a, b⟩) hs.2 (fun i hi => hs.1 i hi)
  simp only at g1 g2 g3 g4 g5 g6 g7 g8 g9 g10 g11 g12
  have hin : ∀ i, i ∈ first :: tail → i = s ∨ i ∈ rest := by
    intro i hi; exact List.mem_cons.mp ((hmem i).mpr hi)
  have hs' : s ∈ first :: tail := (hmem s).mp (by simp)
  have hr' : ∀ i ∈ rest, i ∈ first :: tail := fun i hi => (hmem i).mp (List.mem_cons_of_mem _ hi)
  refine ⟨?_, ?_, ⟨s, hs', g2.symm⟩, ?_, ?_, ?_, ?_, ?_, ?_, ?_⟩
  · intro t ht1 ht2
    rcases g1 t ht1 ht2 with h | ⟨i, hi, h⟩
    · exact ⟨s, hs', h⟩
    · exact ⟨i, hr' i hi, h⟩
  · intro i hi
    rw [g2]
    rcases hin i hi with rfl | hi
    · exact le_refl _
    · exact hs.1 i hi
  · intro i hi
    rcases hin i hi with rfl | hi
    · exact g3
    · exact g4 i hi
  · rcases g5 with h | ⟨i, hi, h⟩
    · exact ⟨s, hs', h.symm⟩
    · exact ⟨i, hr' i hi, h⟩
  · intro i hi
    rcases hin i hi with rfl | hi
    · exact g6
    · exact g7 i hi
  · rcases g8 with h | ⟨i, hi, h⟩
    · exact ⟨s, hs', h.symm⟩
    · exact ⟨i, hr' i hi, h⟩
  · intro i hi
    rcases hin i hi with rfl | hi
    · exact g9
    · exact g10 i hi
  · rcases g11 with h | ⟨i, hi, h⟩
    · exact ⟨s, hs', h.symm⟩
    · exact ⟨i, hr' i hi, h⟩
  · intro i hi
    rcases hin i hi with rfl | hi
    · exact (not_not.mp hint).symm
    · exact g12 i hi

/-- C13: a collection with a gap is rejected, wherever the gap is and whatever the
order of the members. -/
theorem C13_gap_rejected (items : List (Info T)) (t : T)
    (hb : ∃ i ∈ items, i.vs ≤ t) (ha : ∃ i ∈ items, t ≤ i.ve)
    (hgap : ∀ i ∈ items, ¬ (i.vs ≤ t ∧ t ≤ i.ve)) : composedInit items = none := by
  cases h : composedInit items with
  | none => rfl
  | some r =>
    exfalso
    obtain ⟨h1, h2, -, h4, -⟩ := C13_no_hole items r h
    obtain ⟨i, hi, hi'⟩ := hb
    obtain ⟨j, hj, hj'⟩ := ha
    obtain ⟨k, hk, hk'⟩ := h1 t (le_trans (h2 i hi) hi') (le_trans hj' (h4 j hj))
    exact hgap k hk hk'

/-- C13, acceptance.  Missing for the full statement: gap-free collections with a
member inside of another one can be rejected (`C13_nested_rejected`).  Without nesting
every gap-free collection is accepted. -/
theorem C13_accepted_partial [DenselyOrdered T] (items : List (Info T)) (hne : items ≠ [])
    (hval : ∀ i ∈ items, i.vs ≤ i.ve)
    (hint : ∀ i ∈ items, ∀ j ∈ items, i.isInternal = j.isInternal)
    (hnest : ∀ i ∈ items, ∀ j ∈ items, i.vs < j.vs → i.ve ≤ j.ve)
    (hcov : ∀ t, (∃ i ∈ items, i.vs ≤ t) → (∃ i ∈ items, t ≤ i.ve) →
      ∃ i ∈ items, i.vs ≤ t ∧ t ≤ i.ve) :
    ∃ r, composedInit items = some r := by
  obtain ⟨first, tail, rfl⟩ := List.exists_cons_of_ne_nil hne
  have hmem : ∀ i, i ∈ (first :: tail).mergeSort validityLe ↔ i ∈ first :: tail := by
    intro i; exact (List.mergeSort_perm _ _).mem_iff
  have hsorted := sorted_items (first :: tail)
  unfold composedInit
  cases hsort : (first :: tail).mergeSort validityLe with
  | nil =>
    have := (List.mergeSort_perm (first :: tail) validityLe).length_eq
    rw [hsort] at this; simp at this
  | cons s rest =>
    rw [hsort] at hmem hsorted
    have hend : ∀ a b, a ∈ first :: tail → b ∈ first :: tail → validityLe a b = true → a.ve ≤ b.ve := by
      intro a b ha hb hab
      unfold validityLe at hab
      split at hab
      · simpa using hab
      · rename_i hne
        exact hnest a ha b hb (lt_of_le_of_ne (by simpa using hab) hne)
    have hchain : (s :: rest).IsChain (fun a c => c.vs ≤ a.ve) := by
      rw [List.isChain_iff_getElem]
      intro i hi
      have hp := List.pairwise_iff_getElem.mp hsorted
      by_contra hlt
      rw [not_le] at hlt
      obtain ⟨t, ht1, ht2⟩ := exists_between hlt
      have hmi : (s :: rest)[i] ∈ first :: tail := (hmem _).mp (List.getElem_mem _)
      have hmi' : (s :: rest)[i+1] ∈ first :: tail := (hmem _).mp (List.getElem_mem _)
      obtain ⟨k, hk, hk1, hk2⟩ := hcov t
        ⟨_, hmi, le_trans (hval _ hmi) ht1.le⟩ ⟨_, hmi', le_trans ht2.le (hval _ hmi')⟩
      obtain ⟨q, hq, hqe⟩ := List.getElem_of_mem ((hmem k).mpr hk)
      subst hqe
      rcases Nat.lt_or_ge i q with h | h
      · rcases Nat.lt_or_ge (i+1) q with h' | h'
        · have := validityLe_vs _ _ (hp (i+1) q hi hq h')
          exact absurd (lt_of_lt_of_le ht2 this) (not_lt.mpr hk1)
        · have : q = i + 1 := by omega
          subst this
          exact absurd ht2 (not_lt.mpr hk1)
      · rcases Nat.lt_or_ge q i with h' | h'
        · have := hend _ _ hk hmi (hp q i hq (by omega) h')
          exact absurd (lt_of_le_of_lt this ht1) (not_lt.mpr hk2)
        · have : q = i := by omega
          subst this
          exact absurd ht1 (not_lt.mpr hk2)
    obtain ⟨r, hr⟩ := composedLoop_complete first.isInternal (s :: rest) ⊤ ⊤ ⊥ s.degree s.minDegree
      (fun i hi => hint i ((hmem i).mp hi) first (by simp)) (fun i _ => le_top) hchain
    exact ⟨_, by simp only [hr]; rfl⟩

end validity

/-- C13 does not hold as stated: for `a < b ≤ c < d ≤ e ≤ f` the intervals `[a,f]`,
`[b,c]`, `[d,e]` cover `[a,f]` without a gap, yet they are rejected (with the message
about time-gaps). -/
theorem C13_nested_rejected {T : Type} [LinearOrder T] [BoundedOrder T] (a b c d e f : T)
    (h1 : a < b) (h2 : b ≤ c) (h3 : c < d) (h4 : d ≤ e) (h5 : e ≤ f) :
    let items : List (Info T) := [⟨a, f, 1, 1, true⟩, ⟨b, c, 1, 1, true⟩, ⟨d, e, 1, 1, true⟩]
    (∀ t, (∃ i ∈ items, i.vs ≤ t) → (∃ i ∈ items, t ≤ i.ve) → ∃ i ∈ items, i.vs ≤ t ∧ t ≤ i.ve) ∧
      composedInit items = none := by
  intro items
  have hbd : b < d := lt_of_le_of_lt h2 h3
  constructor
  · rintro t ⟨i, hi, hi'⟩ ⟨j, hj, hj'⟩
    refine ⟨⟨a, f, 1, 1, true⟩, by simp [items], ?_, ?_⟩
    · simp only [items, List.mem_cons, List.not_mem_nil, or_false] at hi
      rcases hi with rfl | rfl | rfl
      · exact hi'
      · exact le_trans h1.le hi'
      · exact le_trans (lt_trans h1 hbd).le hi'
    · simp only [items, List.mem_cons, List.not_mem_nil, or_false] at hj
      rcases hj with rfl | rfl | rfl
      · exact hj'
      · exact le_trans hj' (le_trans h3.le (le_trans h4 h5))
      · exact le_trans hj' h5
  · have hs : items.mergeSort validityLe = items := by
      apply List.mergeSort_of_pairwise
      simp [items, validityLe, h1.ne, h1.le, hbd.ne, hbd.le, (lt_trans h1 hbd).ne, (lt_trans h1 hbd).le]
    have hbf : ¬ f < b := not_lt.mpr (le_trans hbd.le (le_trans h4 h5))
    unfold composedInit
    simp only [items] at hs ⊢
    rw [hs]
    simp [composedLoop, hbf, h3]

/-- The witness: [0,10], [1,2], [5,8]. -/
example : composedInit [(⟨0, 10, 1, 1, true⟩ : Info (Fin 11)), ⟨1, 2, 1, 1, true⟩, ⟨5, 8, 1, 1, true⟩] = none :=
  (C13_nested_rejected (0 : Fin 11) 1 2 5 8 10 (by decide) (by decide) (by decide) (by decide)
    (by decide)).2

/-- Two adjacent intervals supplied in the reverse order are accepted. -/
example : ∃ r, composedInit [(⟨5, 9, 4, 1, true⟩ : Info (Fin 11)), ⟨2, 5, 3, 2, true⟩] = some r ∧
    r.vs = 2 ∧ r.ve = 9 ∧ r.degree = 4 := by
  refine ⟨⟨2, 9, 4, 1, true⟩, ?_, rfl, rfl, rfl⟩
  unfold composedInit
  have : [(⟨5, 9, 4, 1, true⟩ : Info (Fin 11)), ⟨2, 5, 3, 2, true⟩].mergeSort validityLe =
      [⟨2, 5, 3, 2, true⟩, ⟨5, 9, 4, 1, true⟩] := by
    simp [List.mergeSort, List.MergeSort.Internal.splitInTwo, List.merge, validityLe]
  rw [this]
  simp [composedLoop]

/-- An instance of the rejection: [0,1] and [3,4]. -/
example : composedInit [(⟨3, 4, 1, 1, true⟩ : Info (Fin 11)), ⟨0, 1, 1, 1, true⟩] = none :=
  C13_gap_rejected _ 2 ⟨⟨0, 1, 1, 1, true⟩, by simp, by decide⟩
    ⟨⟨3, 4, 1, 1, true⟩, by simp, by decide⟩ (by simp)

section eval
variable {T V : Type}

/-- C14: at a time valid for some member the result is the evaluation of the first such
member; the order of the members is the supplied one. -/
theorem C14_first_match (pre post : List (Member T V)) (m : Member T V) (t : T)
    (hm : m.valid t = true) (hpre : ∀ i ∈ pre, i.valid t = false) :
    composedSingle (pre ++ m :: post) t = m.single t := by
  have : (pre ++ m :: post).find? (fun i => i.valid t) = some m := by
    rw [List.find?_append, List.find?_eq_none.mpr (by intro x hx; simp [hpre x hx])]
    simp [hm]
  simp [composedSingle, this]

/-- Outside of all members the first member is used. -/
theorem C14_no_match (m : Member T V) (rest : List (Member T V)) (t : T)
    (h : ∀ i ∈ m :: rest, i.valid t = false) : composedSingle (m :: rest) t = m.single t := by
  have : (m :: rest).find? (fun i => i.valid t) = none :=
    List.find?_eq_none.mpr (by intro x hx; simp [h x hx])
  simp [composedSingle, this]

/-- C14: evaluation at many times succeeds and is the stack of the single evaluations,
up to the zero padding to the common size. -/
theorem C14_multi [Zero V] (items : List (Member T V)) (hne : items ≠ [])
    (hc : ∀ i ∈ items, Coherent i) (times : List T) :
    ∃ tabs d, composedMulti items times = some (tabs, d) ∧
      List.Forall₂ (fun t tab => (tab.length : Int) = (d + 1) * (d + 2) / 2 ∧
        ∃ tab1 d1, composedSingle items t = some (tab1, d1) ∧ SameCells tab tab1) times tabs := by
  obtain ⟨tabs, d, h1, h2, h3⟩ := composedMulti_spec items hne hc times
  refine ⟨tabs, d, h1, h3.imp (fun t tab h => ⟨?_, h.2⟩)⟩
  rw [h.1]; unfold coeffSize; congr 1; ring

/-- C15: the table of combined coefficients is the entry-wise sum (from left to right)
of the tables of the members, and its degree is the largest one. -/
theorem C15_sum [AddZeroClass V] (items : List (Member T V)) (hne : items ≠ [])
    (hc : ∀ i ∈ items, Coherent i) (t : T) :
    ∃ results tab d, combinedSingle items t = some (tab, d) ∧
      (tab.length : Int) = (d + 1) * (d + 2) / 2 ∧
      List.Forall₂ (fun i r => i.single t = some r) items results ∧
      (∀ r ∈ results, r.2 ≤ d) ∧ (∃ r ∈ results, r.2 = d) ∧
      ∀ r c, cell tab r c = results.foldl (fun s x => s + cell x.1 r c) 0 := by
  obtain ⟨results, tab, d, h1, h2, h3, h4, h5, h6, h7⟩ := combinedSingle_spec items hc t
  refine ⟨results, tab, d, h1, ?_, h4, h5, ?_, h7⟩
  · rw [h3]; unfold coeffSize; congr 1; ring
  · rcases h6 with h0 | h6
    · cases h4 with
      | nil => exact absurd rfl hne
      | @cons i r _ _ hi _ =>
        refine ⟨r, by simp, le_antisymm (h5 r (by simp)) ?_⟩
        obtain ⟨tab', d', e1, e2, -⟩ := (hc i (by simp)).single_ok t
        rw [hi] at e1
        simp only [Option.some.injEq] at e1
        rw [e1, h0]; exact e2
    · exact h6

/-- C15 for arrays of times: the stack of single evaluations. -/
theorem C15_multi [AddZeroClass V] (items : List (Member T V))
    (hc : ∀ i ∈ items, Coherent i) (ts : List T) :
    ∃ tabs d, combinedMulti items ts = some (tabs, d) ∧
      List.Forall₂ (fun t tab => (tab.length : Int) = (d + 1) * (d + 2) / 2 ∧
        ∃ tab1 d1, combinedSingle items t = some (tab1, d1) ∧ SameCells tab tab1) ts tabs := by
  obtain ⟨tabs, d, h1, -, h3⟩ := combinedMulti_spec items hc ts
  refine ⟨tabs, d, h1, h3.imp (fun t tab h => ⟨?_, h.2⟩)⟩
  rw [h.1]; unfold coeffSize; congr 1; ring

/-- Coefficients built from coherent members by any nesting of composing and
combining. -/
inductive Built [AddZeroClass V] : Member T V → Prop
  | leaf (m) : Coherent m → Built m
  | composed (items : List (Member T V)) (valid d md b) (hne : items ≠ [])
      (h : ∀ i ∈ items, Built i) :
      Built ⟨valid, d, md, b, composedSingle items, composedMulti items⟩
  | combined (items : List (Member T V)) (valid d md b)
      (h : ∀ i ∈ items, Built i) :
      Built ⟨valid, d, md, b, combinedSingle items, combinedMulti items⟩

/-- C14, C15 for any depth of nesting: array and scalar evaluation agree up to zero
padding, never fail, and have the size of their degree. -/
theorem C14_nested [AddZeroClass V] (m : Member T V) (h : Built m) : Coherent m := by
  induction h with
  | leaf m h => exact h
  | composed items valid d md b hne _ ih =>
    exact ⟨composedSingle_ok items hne ih, composedMulti_spec items hne ih⟩
  | combined items valid d md b _ ih =>
    refine ⟨?_, combinedMulti_spec items ih⟩
    intro t
    obtain ⟨_, tab, d, h1, h2, h3, -⟩ := combinedSingle_spec items ih t
    exact ⟨tab, d, h1, h2, h3⟩

end eval

section combined
variable {T : Type} [LinearOrder T]

/-- C15: validity is the intersection of the validities, degree the maximum and
minimal degree the minimum. -/
theorem C15_validity (items : List (Info T)) (r : Info T) (h : combinedInit items = some r) :
    (∀ t, (r.vs ≤ t ∧ t ≤ r.ve) ↔ ∀ i ∈ items, i.vs ≤ t ∧ t ≤ i.ve) ∧
    (∀ i ∈ items, i.degree ≤ r.degree) ∧ (∃ i ∈ items, i.degree = r.degree) ∧
    (∀ i ∈ items, r.minDegree ≤ i.minDegree) ∧ (∃ i ∈ items, i.minDegree = r.minDegree) ∧
    (∀ i ∈ items, i.isInternal = r.isInternal) := by
  cases items with
  | nil => simp [combinedInit] at h
  | cons first rest =>
    unfold combinedInit at h
    simp only at h
    induction rest generalizing first with
    | nil =>
      simp only [List.foldlM_nil, Option.pure_def, Option.some.injEq] at h
      subst h
      simp
    | cons i l ih =>
      rw [List.foldlM_cons] at h
      split at h
      · exact absurd h (by simp)
      rename_i hint
      simp only [Option.bind_eq_bind, Option.bind_some] at h
      obtain ⟨h1, h2, ⟨j3, hj3, h3⟩, h4, ⟨j5, hj5, h5⟩, h6⟩ := ih _ h
      simp only [List.mem_cons, forall_eq_or_imp] at *
      refine ⟨?_, ?_, ?_, ?_, ?_, ?_⟩
      · intro t
        rw [h1 t]
        simp only [max_le_iff, le_min_iff]
        tauto
      · exact ⟨le_trans (le_max_left _ _) h2.1, le_trans (le_max_right _ _) h2.1, h2.2⟩
      · rcases hj3 with rfl | hj3
        · rcases max_choice first.degree i.degree with hm | hm
          · exact ⟨first, Or.inl rfl, by rw [← h3]; exact hm.symm⟩
          · exact ⟨i, Or.inr (Or.inl rfl), by rw [← h3]; exact hm.symm⟩
        · exact ⟨j3, Or.inr (Or.inr hj3), h3⟩
      · exact ⟨le_trans h4.1 (min_le_left _ _), le_trans h4.1 (min_le_right _ _), h4.2⟩
      · rcases hj5 with rfl | hj5
        · rcases min_choice first.minDegree i.minDegree with hm | hm
          · exact ⟨first, Or.inl rfl, by rw [← h5]; exact hm.symm⟩
          · exact ⟨i, Or.inr (Or.inl rfl), by rw [← h5]; exact hm.symm⟩
        · exact ⟨j5, Or.inr (Or.inr hj5), h5⟩
      · exact ⟨h6.1, by rw [← h6.1]; exact (not_not.mp hint).symm, h6.2⟩

/-- C15: members of one source are always accepted, even if the intersection of the
validities is empty; mixed sources are rejected. -/
theorem C15_accepted (first : Info T) (rest : List (Info T)) :
    (∃ r, combinedInit (first :: rest) = some r) ↔ ∀ i ∈ rest, i.isInternal = first.isInternal := by
  unfold combinedInit
  simp only
  induction rest generalizing first with
  | nil => simp
  | cons i l ih =>
    rw [List.foldlM_cons]
    by_cases h : first.isInternal = i.isInternal
    · rw [if_neg (by simpa using h)]
      have := ih ⟨max first.vs i.vs, min first.ve i.ve, max first.degree i.degree,
        min first.minDegree i.minDegree, first.isInternal⟩
      simp only [Option.bind_eq_bind, Option.bind_some, List.mem_cons, forall_eq_or_imp, h.symm,
        true_and]
      exact this
    · rw [if_pos h]
      constructor
      · rintro ⟨r, hr⟩; simp at hr
      · intro hh; exact absurd (hh i (by simp)).symm h

example : combinedInit [(⟨0, 10, 3, 1, true⟩ : Info ℤ), ⟨5, 20, 7, 2, true⟩] =
    some ⟨5, 10, 7, 1, true⟩ := by simp [combinedInit]

end combined

section sparse
variable {K : Type} [Field K] [LinearOrder K] [IsStrictOrderedRing K]

instance : AddZeroClass (X K) where
  zero_add x := by
    show X.add (.fin 0) x = x
    cases x <;> simp [X.add]
  add_zero x := by
    show X.add x (.fin 0) = x
    cases x <;> simp [X.add]

/-- The sparse time-dependent sets (for any degree limits and time conversion) satisfy
the conditions of the theorems above, so that these hold for every model built of
them. -/
theorem C14_sparse_coherent (td : TimeDep K) (conv : X K → X K) (lo hi : Int)
    (valid : X K → Bool) (d md : Int) (b : Bool) (hne : td.entries ≠ [])
    (hv : ∀ e ∈ td.entries, |e.1.2| ≤ e.1.1) (hnd : (td.entries.map Prod.fst).Nodup)
    (hlen : ∀ e ∈ td.entries, e.2.length = td.times.length)
    (hmin : minNodes td.kind ≤ td.times.length) (hn : td.times.length < 2 ^ 64) :
    Coherent ⟨valid, d, md, b, callSingle td conv lo hi, callMulti td conv lo hi⟩ := by
  have hok : ∀ t, ∃ tab, callSingle td conv lo hi t = some (tab, (subsetDegree td.entries lo hi).1) ∧
      (tab.length : Int) = coeffSize (subsetDegree td.entries lo hi).1 := by
    intro t
    have hex : ∀ e ∈ td.entries, ∃ x, interp td.kind true (conv t) td.times e.2 = .ok x := by
      intro e he
      have hb := C05_interp_in_bounds td.kind true (conv t) td.times e.2 hn
      have hve := C05_value_error td.kind true (conv t) td.times e.2
      have hl := hlen e he
      cases hres : interp td.kind true (conv t) td.times e.2 with
      | ok x => exact ⟨x, rfl⟩
      | oob => exact absurd hres hb
      | valueError =>
        rw [hres] at hve
        have := hve.mp rfl
        have hk : minNodes td.kind = if td.kind = Kind.c0 then 1 else 2 := by
          cases td.kind <;> simp [minNodes]
        omega
    let val : List (X K) → X K := fun c =>
      match interp td.kind true (conv t) td.times c with
      | .ok x => x
      | _ => .nan
    obtain ⟨tab, h1, h2, -, -⟩ := callSingle_spec td conv lo hi t val hne hv hnd (by
      intro e he
      obtain ⟨x, hx⟩ := hex e he
      simp only [val, hx])
    exact ⟨tab, h1, h2⟩
  have hd0 : 0 ≤ (subsetDegree td.entries lo hi).1 := by
    obtain ⟨h1, h2, h3⟩ := subsetDegree_spec td.entries hne lo hi
    by_cases hk : (subsetDegree td.entries lo hi).2 = []
    · rw [h2 hk]
    · obtain ⟨e, he, heq⟩ := (h3 hk).2
      rw [h1] at he
      have := hv e (List.mem_filter.mp he).1
      have := abs_nonneg e.1.2
      omega
  refine ⟨?_, ?_⟩
  · intro t
    obtain ⟨tab, h1, h2⟩ := hok t
    exact ⟨tab, _, h1, hd0, h2⟩
  · intro ts
    choose tab h1 h2 using hok
    refine ⟨ts.map tab, _, (C12_multi td conv lo hi ts (ts.map tab) _).mpr ⟨rfl, ?_⟩, hd0, ?_⟩
    · rw [List.forall₂_map_right_iff, List.forall₂_same]
      intro t _; exact h1 t
    · rw [List.forall₂_map_right_iff, List.forall₂_same]
      intro t _
      exact ⟨h2 t, tab t, _, h1 t, fun _ _ => rfl⟩

end sparse

end Verif.Props
