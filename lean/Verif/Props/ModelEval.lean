/-
C18: evaluation of spherical harmonic models over time.
-/
import Verif.Lemmas.ModelEval
import Verif.Props.Composed

set_option linter.unusedSectionVars false

namespace Verif.Props

open Verif.Intervals Verif.Spec Verif.ModelEval

section comps
variable {T L R : Type} [LinearOrder T]

/-- C18, scalar time: the first component whose closed interval contains the time is
evaluated at every location; NaN for all locations if there is none. -/
theorem C18_scalar (pre post : List (Comp T L R)) (c : Comp T L R) (t : T) (locs : List L)
    (hc : c.s ≤ t ∧ t ≤ c.e) (hpre : ∀ i ∈ pre, ¬ (i.s ≤ t ∧ t ≤ i.e)) :
    evalScalar (pre ++ c :: post) t locs = locs.map (fun l => some (c.ev t l)) := by
  rw [evalScalar_eq, List.find?_append, List.find?_eq_none.mpr]
  · simp [Comp.isValid, hc.1, hc.2]
  · intro i hi h
    exact hpre i hi (by simpa [Comp.isValid] using h)

/-- C18, array of times: every point gets the value of the last component containing its
time, independently of the other points. -/
theorem C18_array (pre post : List (Comp T L R)) (c : Comp T L R) (pts : List (T × L))
    (hev : ∀ i ∈ pre ++ c :: post, ∀ ps, i.evs ps = ps.map (fun p => i.ev p.1 p.2))
    (k : Nat) (p : T × L) (hk : pts[k]? = some p)
    (hc : c.s ≤ p.1 ∧ p.1 ≤ c.e) (hpost : ∀ i ∈ post, ¬ (i.s ≤ p.1 ∧ p.1 ≤ i.e)) :
    (evalArray (pre ++ c :: post) pts)[k]? = some (some (c.ev p.1 p.2)) := by
  rw [evalArray_eq _ _ hev, List.getElem?_map, hk]
  have : post.reverse.find? (fun c => c.isValid p.1) = none := by
    rw [List.find?_eq_none]
    intro i hi h
    exact hpost i (by simpa using hi) (by simpa [Comp.isValid] using h)
  have hc' : c.isValid p.1 = true := by simp [Comp.isValid, hc.1, hc.2]
  simp [this, hc']

/-- C18, NaN: with a scalar time and with an array of times the result is NaN exactly
if no component contains the time. -/
theorem C18_nan (comps : List (Comp T L R)) (pts : List (T × L))
    (hev : ∀ i ∈ comps, ∀ ps, i.evs ps = ps.map (fun p => i.ev p.1 p.2))
    (k : Nat) (t : T) (l : L) (hk : pts[k]? = some (t, l)) :
    ((evalArray comps pts)[k]? = some none ↔ ∀ c ∈ comps, ¬ (c.s ≤ t ∧ t ≤ c.e)) ∧
    (evalScalar comps t [l] = [none] ↔ ∀ c ∈ comps, ¬ (c.s ≤ t ∧ t ≤ c.e)) := by
  rw [evalArray_eq _ _ hev, List.getElem?_map, hk, evalScalar_eq]
  simp [Comp.isValid]

/-- C18, agreement.  Missing for the full statement: `C18_boundary` and `C18_overlap`
show that it fails where several components with different values contain a time.
When the components containing the time give the same value there, the evaluation with
a scalar time and with an array of times agree. -/
theorem C18_agree_partial (comps : List (Comp T L R)) (pts : List (T × L))
    (hev : ∀ i ∈ comps, ∀ ps, i.evs ps = ps.map (fun p => i.ev p.1 p.2))
    (k : Nat) (t : T) (l : L) (hk : pts[k]? = some (t, l))
    (hsame : ∀ a ∈ comps, ∀ b ∈ comps, (a.s ≤ t ∧ t ≤ a.e) → (b.s ≤ t ∧ t ≤ b.e) →
      a.ev t l = b.ev t l) :
    (evalArray comps pts)[k]? = (evalScalar comps t [l])[0]? := by
  rw [evalArray_eq _ _ hev, List.getElem?_map, hk, evalScalar_eq]
  simp only [Option.map_some, List.map_cons, List.map_nil, List.getElem?_cons_zero]
  cases h1 : comps.reverse.find? (fun c => c.isValid t) with
  | none =>
    have : comps.find? (fun c => c.isValid t) = none := by
      rw [List.find?_eq_none] at h1 ⊢
      intro x hx; exact h1 x (by simpa using hx)
    rw [this]
  | some a =>
    cases h2 : comps.find? (fun c => c.isValid t) with
    | none =>
      rw [List.find?_eq_none] at h2
      exact absurd (List.find?_some h1) (h2 a (by simpa using List.mem_of_find?_eq_some h1))
    | some b =>
      have ha := List.find?_some h1
      have hb := List.find?_some h2
      simp only [Comp.isValid, ge_iff_le, Bool.and_eq_true, decide_eq_true_eq] at ha hb
      simp only [Option.map_some]
      rw [hsame a (by simpa using List.mem_of_find?_eq_some h1) b (List.mem_of_find?_eq_some h2) ha hb]

/-- C18 does not hold as stated: at the common end of two components the scalar
evaluation uses the first one, the array evaluation the second one. -/
theorem C18_boundary (a b c : T) (hab : a ≤ b) (hbc : b ≤ c) (f g : T → L → R) (l : L)
    (hne : f b l ≠ g b l) :
    let comps : List (Comp T L R) :=
      [⟨a, b, f, fun ps => ps.map (fun p => f p.1 p.2)⟩, ⟨b, c, g, fun ps => ps.map (fun p => g p.1 p.2)⟩]
    evalScalar comps b [l] = [some (f b l)] ∧ evalArray comps [(b, l)] = [some (g b l)] ∧
      evalScalar comps b [l] ≠ evalArray comps [(b, l)] := by
  intro comps
  have h1 : evalScalar comps b [l] = [some (f b l)] := by
    simp [comps, evalScalar, Comp.isValid, hab]
  have h2 : evalArray comps [(b, l)] = [some (g b l)] := by
    simp [comps, evalArray, Comp.isValid, hab, hbc, put, pick]
  refine ⟨h1, h2, ?_⟩
  rw [h1, h2]
  simpa using hne

end comps

section trees
variable {T S L R : Type} [LinearOrder T] [BoundedOrder T]

/-- The evaluation of the sets active at the time, NaN if there are none. -/
def ActiveValue (evL : List S → T → L → R) (tree : Tree T S) (t : T) (l : L) (r : Option R) : Prop :=
  (∀ sets, Active (fun x => x ≤ t) tree sets → r = some (evL sets t l)) ∧
  ((∀ sets, ¬ Active (fun x => x ≤ t) tree sets) → r = none)

/-- C18: for nested composed and combined coefficients, at times which are no validity
ends of the sets, the scalar evaluation uses exactly the active sets (the first
matching member of composed objects, all members of combined objects), and gives NaN
if there are none.  `evL` is the evaluation of a collection of sets. -/
theorem C18_active (evL : List S → T → L → R) (tree : Tree T S) (hreg : Regular tree) (t : T)
    (l : L) (hbot : ⊥ < t) (htop : t < ⊤) (hends : ∀ p ∈ spans tree, p.1 ≠ t ∧ p.2 ≠ t) :
    ∃ r, evalScalar (components (fun o => evL (leaves o)) tree) t [l] = [r] ∧
      ActiveValue evL tree t l r := by
  rw [evalScalar_eq]
  refine ⟨_, rfl, ?_⟩
  have hE : EndsIn (fun x => x ≠ t) (decompose tree) :=
    decompose_ends (fun x => x ≠ t) hbot.ne htop.ne' tree hends
  have hF := find_firstCovers (decompose tree) t hE
  have hA := regular_active hreg (fun x => x ≤ t) (isCut_le t) hbot.le (not_le.mpr htop)
  have hfind : (components (fun o => evL (leaves o)) tree).find? (fun c => c.isValid t) =
      ((decompose tree).find? (fun c => decide (t ≥ c.s) && decide (t ≤ c.e))).map
        (fun c => ⟨c.s, c.e, evL (leaves c.o), fun pts => pts.map (fun p => evL (leaves c.o) p.1 p.2)⟩) := by
    unfold components
    rw [List.find?_map]
    rfl
  constructor
  · intro sets hs
    obtain ⟨o, ho, rfl⟩ := (hA sets).mpr hs
    obtain ⟨c, hc, rfl⟩ := (hF o).mpr ho
    rw [hfind, hc]
    rfl
  · intro hs
    rw [hfind]
    cases hc : (decompose tree).find? (fun c => decide (t ≥ c.s) && decide (t ≤ c.e)) with
    | none => rfl
    | some c =>
      exact absurd ((hA _).mp ⟨c.o, (hF c.o).mp ⟨c, hc, rfl⟩, rfl⟩) (hs _)

/-- C18, arrays of times.  Missing for the full statement: members overlapping in time
(`C18_overlap`) and the validity ends (`C18_boundary`).  For coefficients whose composed
parts list their members in the order of time the array evaluation uses the active
sets, too. -/
theorem C18_active_array_partial (evL : List S → T → L → R) (tree : Tree T S) (hord : Ordered tree)
    (pts : List (T × L)) (k : Nat) (t : T) (l : L) (hk : pts[k]? = some (t, l))
    (hbot : ⊥ < t) (htop : t < ⊤) (hends : ∀ p ∈ spans tree, p.1 ≠ t ∧ p.2 ≠ t) :
    ∃ r, (evalArray (components (fun o => evL (leaves o)) tree) pts)[k]? = some r ∧
      ActiveValue evL tree t l r := by
  have hE : EndsIn (fun x => x ≠ t) (decompose tree) :=
    decompose_ends (fun x => x ≠ t) hbot.ne htop.ne' tree hends
  have hG := ordered_good hord
  have hA := ordered_active hord (fun x => x ≤ t) (isCut_le t) hbot.le (not_le.mpr htop)
  rw [C18_agree_partial _ pts (by intro i hi ps; unfold components at hi; obtain ⟨c, -, rfl⟩ := List.mem_map.mp hi; rfl) k t l hk]
  · have hF := find_firstCovers (decompose tree) t hE
    rw [evalScalar_eq]
    refine ⟨_, rfl, ?_⟩
    have hfind : (components (fun o => evL (leaves o)) tree).find? (fun c => c.isValid t) =
        ((decompose tree).find? (fun c => decide (t ≥ c.s) && decide (t ≤ c.e))).map
          (fun c => ⟨c.s, c.e, evL (leaves c.o), fun pts => pts.map (fun p => evL (leaves c.o) p.1 p.2)⟩) := by
      unfold components
      rw [List.find?_map]
      rfl
    constructor
    · intro sets hs
      obtain ⟨o, ho, rfl⟩ := (hA sets).mpr hs
      obtain ⟨c, hc, rfl⟩ := (hF o).mpr ho
      rw [hfind, hc]
      rfl
    · intro hs
      rw [hfind]
      cases hc : (decompose tree).find? (fun c => decide (t ≥ c.s) && decide (t ≤ c.e)) with
      | none => rfl
      | some c =>
        exact absurd ((hA _).mp ⟨c.o, (hF c.o).mp ⟨c, hc, rfl⟩, rfl⟩) (hs _)
  · intro a ha b hb hat hbt
    unfold components at ha hb
    obtain ⟨a, ham, rfl⟩ := List.mem_map.mp ha
    obtain ⟨b, hbm, rfl⟩ := List.mem_map.mp hb
    clear ha hb
    simp only at hat hbt ⊢
    have strict : ∀ c ∈ decompose tree, c.s ≤ t ∧ t ≤ c.e → c.s < t ∧ t < c.e := fun c hc h =>
      ⟨lt_of_le_of_ne h.1 (hE c hc).1, lt_of_le_of_ne h.2 (Ne.symm (hE c hc).2)⟩
    have h1 : FirstCovers (fun x => x ≤ t) a.o ((decompose tree).map Iv.tup) :=
      (good0_firstCovers _ hG _ (isCut_le t) _).mpr
        ⟨a, ham, rfl, (strict a ham hat).1.le, not_le.mpr (strict a ham hat).2⟩
    have h2 : FirstCovers (fun x => x ≤ t) b.o ((decompose tree).map Iv.tup) :=
      (good0_firstCovers _ hG _ (isCut_le t) _).mpr
        ⟨b, hbm, rfl, (strict b hbm hbt).1.le, not_le.mpr (strict b hbm hbt).2⟩
    have : a.o = b.o := by
      obtain ⟨c, hc, hc'⟩ := (find_firstCovers (decompose tree) t hE a.o).mpr h1
      obtain ⟨d, hd, hd'⟩ := (find_firstCovers (decompose tree) t hE b.o).mpr h2
      rw [hc] at hd
      cases hd
      rw [← hc', ← hd']
    rw [this]

/-- C18 does not hold as stated: where two members of composed coefficients overlap, the
scalar evaluation uses the first member and the array evaluation the last one. -/
theorem C18_overlap (evL : List S → T → L → R) (a b c d t : T) (x y : S) (l : L)
    (h1 : a < t) (h2 : t < b) (h3 : c < t) (h4 : t < d) :
    let tree : Tree T S := .composed [.sparse a b x, .sparse c d y]
    let comps := components (fun o => evL (leaves o)) tree
    evalScalar comps t [l] = [some (evL [x] t l)] ∧ evalArray comps [(t, l)] = [some (evL [y] t l)] := by
  intro tree comps
  have hab := lt_trans h1 h2
  have hcd := lt_trans h3 h4
  have hd : decompose tree = [⟨a, b, .sparse a b x⟩, ⟨c, d, .sparse c d y⟩] := by
    simp [tree, decompose, decomposeComposed, nonOverlapping, addInterval, loop, bisectRightEnds,
      insertAt, hab, hcd, not_lt.mpr hab.le, not_lt.mpr hcd.le]
  constructor
  · simp [comps, components, hd, evalScalar, Comp.isValid, h1.le, h2.le, leaves]
  · simp [comps, components, hd, evalArray, Comp.isValid, h1.le, h2.le, h3.le, h4.le, leaves, put, pick]

/-- C18 does not hold as stated: two composed objects, valid over the same time, the
first one listing its members in the reverse order of time, are combined; the result is
NaN at times at which all parts are valid. -/
theorem C18_unordered_nan (evL : List S → T → L → R) (a b c t : T) (x y u v : S) (l : L)
    (hbot : ⊥ < a) (h1 : a < t) (h2 : t < b) (h3 : b < c) (htop : c < ⊤) :
    let tree : Tree T S := .combined [.composed [.sparse b c y, .sparse a b x],
      .composed [.sparse a b u, .sparse b c v]]
    let comps := components (fun o => evL (leaves o)) tree
    Active (fun s => s ≤ t) tree [x, u] ∧
      evalScalar comps t [l] = [none] ∧ evalArray comps [(t, l)] = [none] := by
  intro tree comps
  have hab := lt_trans h1 h2
  have hac := lt_trans hab h3
  have d1 : decompose (.composed [.sparse b c y, .sparse a b x] : Tree T S) =
      [⟨b, c, .sparse b c y⟩, ⟨a, b, .sparse a b x⟩] := by
    simp [decompose, decomposeComposed, nonOverlapping, addInterval, loop, bisectRightEnds,
      insertAt, hab, h3, not_lt.mpr hab.le, not_lt.mpr h3.le]
  have d2 : decompose (.composed [.sparse a b u, .sparse b c v] : Tree T S) =
      [⟨a, b, .sparse a b u⟩, ⟨b, c, .sparse b c v⟩] := by
    simp [decompose, decomposeComposed, nonOverlapping, addInterval, loop, bisectRightEnds,
      insertAt, hab, h3, not_lt.mpr hab.le, not_lt.mpr h3.le]
  have hs : ∀ i ∈ decompose tree, b ≤ i.s := by
    intro i hi
    simp only [tree, decompose, decomposeCombined] at hi
    have e1 : decomposeComposed [Tree.sparse b c y, .sparse a b x] =
      [⟨b, c, .sparse b c y⟩, ⟨a, b, .sparse a b x⟩] := by simpa only [decompose] using d1
    have e2 : decomposeComposed [Tree.sparse a b u, .sparse b c v] =
      [⟨a, b, .sparse a b u⟩, ⟨b, c, .sparse b c v⟩] := by simpa only [decompose] using d2
    rw [e1, e2] at hi
    have hbt : b < ⊤ := lt_trans h3 htop
    have e3 : aggregate [(⟨b, c, .sparse b c y⟩ : Iv T (Tree T S)), ⟨a, b, .sparse a b x⟩] [⟨⊥, ⊤, []⟩] =
        [⟨b, c, [.sparse b c y]⟩, ⟨a, b, [.sparse a b x]⟩] := by
      simp [aggregate, aggLoop, intersect, htop, hbt]
    rw [e3] at hi
    have e4 : aggregate [(⟨a, b, .sparse a b u⟩ : Iv T (Tree T S)), ⟨b, c, .sparse b c v⟩]
        [⟨b, c, [.sparse b c y]⟩, ⟨a, b, [.sparse a b x]⟩] =
        [⟨b, b, [.sparse b c y, .sparse a b u]⟩, ⟨b, c, [.sparse b c y, .sparse b c v]⟩,
          ⟨b, b, [.sparse a b x, .sparse b c v]⟩] := by
      simp [aggregate, aggLoop, intersect, h3, h3.le, hab.le, hac.le, not_lt.mpr h3.le]
    rw [e4] at hi
    simp only [List.map_cons, List.map_nil, List.mem_cons, List.not_mem_nil, or_false] at hi
    rcases hi with rfl | rfl | rfl <;> exact le_refl _
  have hno : ∀ i ∈ comps, ¬ (i.s ≤ t ∧ t ≤ i.e) := by
    intro i hi
    simp only [comps, components] at hi
    obtain ⟨j, hj, rfl⟩ := List.mem_map.mp hi
    rintro ⟨h, -⟩
    exact absurd (le_trans (hs j hj) h) (not_le.mpr h2)
  obtain ⟨n1, n2⟩ := C18_nan comps [(t, l)] (by
    intro i hi ps; simp only [comps, components] at hi; obtain ⟨c, -, rfl⟩ := List.mem_map.mp hi; rfl) 0 t l rfl
  refine ⟨?_, n2.mpr hno, ?_⟩
  · simp only [tree, Active, ActiveAll, ActiveFirst]
    refine ⟨[x], [u], rfl, Or.inr ⟨?_, Or.inl ⟨⟨h1.le, not_le.mpr h2⟩, rfl⟩⟩,
      [u], [], rfl, Or.inl ⟨⟨h1.le, not_le.mpr h2⟩, rfl⟩, rfl⟩
    rintro L' ⟨⟨h, -⟩, -⟩
    exact absurd h (not_le.mpr h2)
  · have h := n1.mpr hno
    have hl : (evalArray comps [(t, l)]).length = 1 := by
      rw [evalArray_eq _ _ (by
        intro i hi ps; simp only [comps, components] at hi; obtain ⟨c, -, rfl⟩ := List.mem_map.mp hi; rfl)]
      simp
    obtain ⟨r, hr⟩ := List.length_eq_one_iff.mp hl
    rw [hr] at h ⊢
    simpa using h

theorem decompose_flat (items : List (T × T × S)) (hpos : ∀ i ∈ items, i.1 < i.2.1) :
    decompose (.composed (items.map (fun i => .sparse i.1 i.2.1 i.2.2))) =
      items.map (fun i => (⟨i.1, i.2.1, .sparse i.1 i.2.1 i.2.2⟩ : Iv T (Tree T S))) := by
  simp only [decompose]
  induction items with
  | nil => rfl
  | cons i l ih =>
    have h := hpos i (by simp)
    simp only [List.map_cons, decomposeComposed, decompose]
    rw [ih (fun j hj => hpos j (by simp [hj]))]
    simp [nonOverlapping, addInterval, loop, bisectRightEnds, insertAt, h, not_lt.mpr h.le]

/-- C18, NaN exactly outside of the reported validity: composed sparse sets with
validities of positive length, in any order and overlapping or not, at any time
including the ends. -/
theorem C18_composed_validity (evL : List S → T → L → R) (items : List (T × T × S))
    (hpos : ∀ i ∈ items, i.1 < i.2.1) (deg : Int) (r : Verif.Coeffs.Info T)
    (hinit : Verif.Coeffs.composedInit (items.map (fun i => ⟨i.1, i.2.1, deg, deg, true⟩)) = some r)
    (pts : List (T × L)) (k : Nat) (t : T) (l : L) (hk : pts[k]? = some (t, l)) :
    let comps := components (fun o => evL (leaves o))
      (.composed (items.map (fun i => .sparse i.1 i.2.1 i.2.2)))
    (evalScalar comps t [l] = [none] ↔ ¬ (r.vs ≤ t ∧ t ≤ r.ve)) ∧
    ((evalArray comps pts)[k]? = some none ↔ ¬ (r.vs ≤ t ∧ t ≤ r.ve)) := by
  intro comps
  obtain ⟨h1, h2, -, h4, -⟩ := C13_no_hole _ r hinit
  have hmem : (∀ c ∈ comps, ¬ (c.s ≤ t ∧ t ≤ c.e)) ↔ ¬ (r.vs ≤ t ∧ t ≤ r.ve) := by
    simp only [comps, components, decompose_flat items hpos, List.mem_map]
    constructor
    · rintro h ⟨ha, hb⟩
      obtain ⟨i, hi, hi'⟩ := h1 t ha hb
      obtain ⟨j, hj, rfl⟩ := List.mem_map.mp hi
      exact h _ ⟨_, ⟨j, hj, rfl⟩, rfl⟩ hi'
    · rintro h c ⟨_, ⟨j, hj, rfl⟩, rfl⟩ hc
      apply h
      have hj' : (⟨j.1, j.2.1, deg, deg, true⟩ : Verif.Coeffs.Info T) ∈
        items.map (fun i => ⟨i.1, i.2.1, deg, deg, true⟩) := List.mem_map.mpr ⟨j, hj, rfl⟩
      exact ⟨le_trans (h2 _ hj') hc.1, le_trans hc.2 (h4 _ hj')⟩
  obtain ⟨n1, n2⟩ := C18_nan comps pts (by
    intro i hi ps; simp only [comps, components] at hi; obtain ⟨c, -, rfl⟩ := List.mem_map.mp hi; rfl) k t l hk
  exact ⟨n2.trans hmem, n1.trans hmem⟩

/-- C18 does not hold as stated: a member whose validity is a single instant is dropped,
so the composed model is NaN at a time at which it is valid. -/
theorem C18_instant_nan (evL : List S → T → L → R) (a : T) (x : S) (l : L) :
    let tree : Tree T S := .composed [.sparse a a x]
    evalScalar (components (fun o => evL (leaves o)) tree) a [l] = [none] := by
  intro tree
  simp [tree, components, decompose, decomposeComposed, nonOverlapping, addInterval, loop, evalScalar]

end trees

/-- Non-trivial instance of the hypotheses: a combined object of a composed core field
and a constant field is ordered. -/
example : Ordered (.combined [.composed [.sparse 1 5 'a', .sparse 5 9 'b'], .sparse 0 10 'c'] :
    Tree (Fin 12) Char) ∧
    Active (fun x => x ≤ 6) (.combined [.composed [.sparse 1 5 'a', .sparse 5 9 'b'], .sparse 0 10 'c'] :
      Tree (Fin 12) Char) ['b', 'c'] := by
  constructor
  · refine .combined _ (by simp) ?_
    intro i hi
    simp only [List.mem_cons, List.not_mem_nil, or_false] at hi
    rcases hi with rfl | rfl
    · refine .composed _ ?_ ?_
      · intro i hi
        simp only [List.mem_cons, List.not_mem_nil, or_false] at hi
        rcases hi with rfl | rfl <;> exact .sparse _ _ _ (by decide)
      · simp [Before, spans]
    · exact .sparse _ _ _ (by decide)
  · simp only [Active, ActiveAll, ActiveFirst]
    refine ⟨['b'], ['c'], rfl, Or.inr ⟨?_, Or.inl ⟨by decide, rfl⟩⟩, ['c'], [], rfl, ⟨by decide, rfl⟩, rfl⟩
    rintro L' ⟨⟨-, h⟩, -⟩
    exact h (by decide)

/-- Non-trivial instance: three points, two of them valid, in different components. -/
example : evalArray [(⟨0, 5, fun t l => (t, l, 'a'), fun ps => ps.map (fun p => (p.1, p.2, 'a'))⟩ :
      Comp Int Nat (Int × Nat × Char)), ⟨6, 9, fun t l => (t, l, 'b'), fun ps => ps.map (fun p => (p.1, p.2, 'b'))⟩]
    [(7, 10), (12, 11), (2, 12)] = [some (7, 10, 'b'), none, some (2, 12, 'a')] := by rfl

end Verif.Props
