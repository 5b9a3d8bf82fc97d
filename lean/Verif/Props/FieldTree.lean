/-
Property C75: the field of models of nested composed and combined coefficients.
-/
import Verif.Model.FieldTree
import Verif.Props.FieldModel
import Verif.Props.ModelEval
import Verif.Lemmas.ClosedEnds

set_option linter.unusedSectionVars false

namespace Verif.Props

open Verif.Spec Verif.Arr Verif.Buf Verif.Geo Verif.ShPoint Verif.FullEval Verif.Coeffs Verif.ShEval Verif.Interp Verif.Field
open Verif.Intervals Verif.ModelEval

/-! ### Selections -/

section selections
variable {T S : Type} [LinearOrder T] [BoundedOrder T]

theorem nonOverlapping_object {O : Type} (ivs : List (Iv T O)) :
    ∀ c ∈ (nonOverlapping ivs).getD [], ∃ j ∈ ivs, j.o = c.o := by
  obtain ⟨res, h1, hg, hh, -⟩ := nonOverlapping_spec ivs
  rw [h1]
  intro c hc
  simp only [Option.getD_some] at hc
  have : Has res (fun x => x ≤ c.s) c.o := ⟨c, hc, rfl, le_refl _, not_le.mpr (hg.1 c hc)⟩
  rw [hh _ (isCut_le _)] at this
  obtain ⟨j, hj, ho, -, -⟩ := firstCovers_has _ _ _ this
  exact ⟨j, hj, ho⟩

theorem decomposeCombined_objects : ∀ (items : List (Tree T S)) (aggs : List (Iv T (List (Tree T S)))),
    ∀ c ∈ decomposeCombined items aggs, ∃ a ∈ aggs, ∃ os, c.o = a.o ++ os ∧
      List.Forall₂ (fun i o => ∃ b ∈ decompose i, b.o = o) items os := by
  intro items
  induction items with
  | nil =>
    intro aggs c hc
    simp only [decomposeCombined] at hc
    exact ⟨c, hc, [], by simp, .nil⟩
  | cons i l ih =>
    intro aggs c hc
    simp only [decomposeCombined] at hc
    obtain ⟨a, ha, os, h1, h2⟩ := ih _ c hc
    generalize hd : decompose i = ivs at ha
    unfold aggregate at ha
    cases aggs with
    | nil => exact absurd ha (by simp)
    | cons a0 as =>
      cases ivs with
      | nil => exact absurd ha (by simp)
      | cons b bs =>
        obtain ⟨a', ha', b', hb', hm⟩ := aggLoop_mem a0 as b bs a ha
        obtain ⟨-, -, e3, -, -⟩ := aggHead_mem a' b' a hm
        refine ⟨a', ha', b'.o :: os, by rw [h1, e3]; simp, .cons ⟨b', by rw [hd]; exact hb', rfl⟩ h2⟩

theorem selectsOne_mem : ∀ (items : List (Tree T S)) (i : Tree T S), i ∈ items → ∀ L, Selects i L → SelectsOne items L
  | [], _, h, _, _ => by simp at h
  | j :: l, i, h, L, hL => by
    rcases List.mem_cons.mp h with rfl | h
    · exact .inl hL
    · exact .inr (selectsOne_mem l i h L hL)

theorem selectsAll_of (items os : List (Tree T S))
    (h : ∀ i ∈ items, ∀ c ∈ decompose i, Selects i (leaves c.o))
    (ho : List.Forall₂ (fun i o => ∃ b ∈ decompose i, b.o = o) items os) : SelectsAll items (leavesAll os) := by
  induction ho with
  | nil => rfl
  | @cons i o items os hb _ ih =>
    obtain ⟨b, hb, rfl⟩ := hb
    exact ⟨leaves b.o, leavesAll os, rfl, h i (by simp) b hb, ih (fun j hj => h j (by simp [hj]))⟩

theorem coefficientSets_all : ∀ (os : List (Tree T S)), (∀ o ∈ os, coefficientSets o = some (leaves o)) →
    coefficientSetsAll os = some (leavesAll os)
  | [], _ => rfl
  | o :: l, h => by
    rw [coefficientSetsAll, h o (by simp), coefficientSets_all l (fun o ho => h o (by simp [ho]))]
    rfl

theorem coefficientSets_mkCombined (os : List (Tree T S)) (h : ∀ o ∈ os, coefficientSets o = some (leaves o)) :
    coefficientSets (mkCombined os) = some (leavesAll os) := by
  match os with
  | [] => rfl
  | [o] => simpa [mkCombined, leavesAll] using h o (by simp)
  | o :: p :: l => exact coefficientSets_all _ h

mutual
/-- The components are not composed. -/
theorem decompose_sets : ∀ (t : Tree T S), ∀ c ∈ decompose t, coefficientSets c.o = some (leaves c.o)
  | .sparse vs ve s => by
    intro c hc
    simp only [decompose, List.mem_singleton] at hc
    subst hc
    rfl
  | .composed items => by
    intro c hc
    simp only [decompose, decomposeComposed_mem] at hc
    obtain ⟨i, hi, hc⟩ := hc
    obtain ⟨j, hj, ho⟩ := nonOverlapping_object _ c hc
    rw [← ho]
    exact decomposeAll_sets items i hi j hj
  | .combined items => by
    intro c hc
    simp only [decompose, List.mem_map] at hc
    obtain ⟨a, ha, rfl⟩ := hc
    obtain ⟨x, hx, os, h1, h2⟩ := decomposeCombined_objects items _ a ha
    rw [List.mem_singleton.mp hx] at h1
    simp only [List.nil_append] at h1
    simp only [leaves_mkCombined, h1]
    refine coefficientSets_mkCombined os (fun o ho => ?_)
    obtain ⟨k, hk, rfl⟩ := List.getElem_of_mem ho
    have hl := h2.length_eq
    obtain ⟨b, hb, hbo⟩ := (List.forall₂_iff_get.mp h2).2 k (by omega) hk
    simp only [List.get_eq_getElem] at hbo
    rw [← hbo]
    exact decomposeAll_sets items _ (List.getElem_mem _) b hb

theorem decomposeAll_sets : ∀ (items : List (Tree T S)), ∀ i ∈ items, ∀ c ∈ decompose i,
    coefficientSets c.o = some (leaves c.o)
  | [] => by simp
  | j :: l => by
    intro i hi
    rcases List.mem_cons.mp hi with e | hi
    · rw [e]
      exact decompose_sets j
    · exact decomposeAll_sets l i hi
end

mutual
/-- What a component holds is a selection. -/
theorem decompose_selects : ∀ (t : Tree T S), ∀ c ∈ decompose t, Selects t (leaves c.o)
  | .sparse vs ve s => by
    intro c hc
    simp only [decompose, List.mem_singleton] at hc
    subst hc
    rfl
  | .composed items => by
    intro c hc
    simp only [decompose, decomposeComposed_mem] at hc
    obtain ⟨i, hi, hc⟩ := hc
    obtain ⟨j, hj, ho⟩ := nonOverlapping_object _ c hc
    rw [← ho]
    exact selectsOne_mem items i hi _ (decomposeAll_selects items i hi j hj)
  | .combined items => by
    intro c hc
    simp only [decompose, List.mem_map] at hc
    obtain ⟨a, ha, rfl⟩ := hc
    obtain ⟨x, hx, os, h1, h2⟩ := decomposeCombined_objects items _ a ha
    rw [List.mem_singleton.mp hx] at h1
    simp only [List.nil_append] at h1
    simp only [leaves_mkCombined, h1]
    exact selectsAll_of items os (decomposeAll_selects items) h2

theorem decomposeAll_selects : ∀ (items : List (Tree T S)), ∀ i ∈ items, ∀ c ∈ decompose i, Selects i (leaves c.o)
  | [] => by simp
  | j :: l => by
    intro i hi
    rcases List.mem_cons.mp hi with e | hi
    · rw [e]
      exact decompose_selects j
    · exact decomposeAll_selects l i hi
end
end selections

/-! ### Components -/

/-- The components with the sets they hold. -/
noncomputable def partsOf (tree : Tree (Ext ℝ) (Sparse ℝ)) : List (Component ℝ) :=
  (decompose tree).map (fun c => ⟨toX c.s, toX c.e, leaves c.o⟩)

/-- **C75**: the components of a model are never evaluated by the default method; each holds a selection of the
sparse sets. -/
theorem C75_components (tree : Tree (Ext ℝ) (Sparse ℝ)) :
    ∃ parts, componentsOf tree = some parts ∧ parts = partsOf tree ∧ ∀ c ∈ parts, Selects tree c.items := by
  refine ⟨partsOf tree, ?_, rfl, ?_⟩
  · unfold componentsOf partsOf
    have key : ∀ l : List (Iv (Ext ℝ) (Tree (Ext ℝ) (Sparse ℝ))), (∀ c ∈ l, coefficientSets c.o = some (leaves c.o)) →
        l.mapM (fun c => (coefficientSets c.o).map (fun l => (⟨toX c.s, toX c.e, l⟩ : Component ℝ))) =
          some (l.map (fun c => ⟨toX c.s, toX c.e, leaves c.o⟩)) := by
      intro l
      induction l with
      | nil => intro _; rfl
      | cons c l ih =>
        intro h
        rw [List.mapM_cons, h c (by simp), ih (fun c hc => h c (by simp [hc]))]
        rfl
    exact key _ (decompose_sets tree)
  · intro c hc
    obtain ⟨d, hd, rfl⟩ := List.mem_map.mp hc
    exact decompose_selects tree d hd

theorem extended_toX (a : Ext ℝ) : extended (toX a) = some a := by
  match a with
  | ⊥ => rfl
  | (⊤ : WithTop ℝ) => rfl
  | ((a : ℝ) : WithTop ℝ) => rfl

theorem within_toX (s e : Ext ℝ) (t : ℝ) :
    Within (toX s) (toX e) (.fin t) ↔ s ≤ ((t : WithTop ℝ) : Ext ℝ) ∧ ((t : WithTop ℝ) : Ext ℝ) ≤ e := by
  unfold Within
  simp only [extended_toX, Option.some.injEq]
  constructor
  · rintro ⟨a, b, c, rfl, rfl, h, h1, h2⟩
    cases h
    exact ⟨h1, h2⟩
  · rintro ⟨h1, h2⟩
    exact ⟨_, _, _, rfl, rfl, rfl, h1, h2⟩

/-- A finite time on the line with both infinities. -/
abbrev at_ (t : ℝ) : Ext ℝ := ((t : WithTop ℝ) : Ext ℝ)

/-- The component made of a piece of the time axis. -/
noncomputable def partOf (c : Iv (Ext ℝ) (Tree (Ext ℝ) (Sparse ℝ))) : Component ℝ := ⟨toX c.s, toX c.e, leaves c.o⟩

theorem partsOf_eq (tree : Tree (Ext ℝ) (Sparse ℝ)) : partsOf tree = (decompose tree).map partOf := rfl

theorem holds_iff (c : Iv (Ext ℝ) (Tree (Ext ℝ) (Sparse ℝ))) (t : ℝ) :
    Within (partOf c).vs (partOf c).ve (.fin t) ↔ (decide (at_ t ≥ c.s) && decide (at_ t ≤ c.e)) = true := by
  rw [Bool.and_eq_true, decide_eq_true_iff, decide_eq_true_iff]
  exact within_toX c.s c.e t

theorem find_active (l : List (Iv (Ext ℝ) (Tree (Ext ℝ) (Sparse ℝ)))) (t : ℝ) (scalar : Prop) (hs : scalar)
    (c) (h : l.find? (fun c => decide (at_ t ≥ c.s) && decide (at_ t ≤ c.e)) = some c) :
    ActiveAt (l.map partOf) scalar (.fin t) (partOf c) := by
  obtain ⟨hv, pre, post, rfl, hn⟩ := List.find?_eq_some_iff_append.mp h
  refine ⟨pre.map partOf, post.map partOf, by simp, (holds_iff c t).mpr hv, .inl ⟨hs, ?_⟩⟩
  intro d hd
  obtain ⟨e, he, rfl⟩ := List.mem_map.mp hd
  rw [holds_iff]
  rw [Bool.not_eq_true, ← Bool.not_eq_true']
  exact hn e he

theorem find_active_reverse (l : List (Iv (Ext ℝ) (Tree (Ext ℝ) (Sparse ℝ)))) (t : ℝ) (scalar : Prop) (hs : ¬ scalar)
    (c) (h : l.reverse.find? (fun c => decide (at_ t ≥ c.s) && decide (at_ t ≤ c.e)) = some c) :
    ActiveAt (l.map partOf) scalar (.fin t) (partOf c) := by
  obtain ⟨hv, pre, post, he, hn⟩ := List.find?_eq_some_iff_append.mp h
  have he : l = post.reverse ++ c :: pre.reverse := by
    have := congrArg List.reverse he
    simpa using this
  subst he
  refine ⟨post.reverse.map partOf, pre.reverse.map partOf, by simp, (holds_iff c t).mpr hv, .inr ⟨hs, ?_⟩⟩
  intro d hd
  obtain ⟨e, he, rfl⟩ := List.mem_map.mp hd
  rw [holds_iff]
  rw [Bool.not_eq_true, ← Bool.not_eq_true']
  exact hn e (List.mem_reverse.mp he)

/-- The active sets of the object are those of the active component. -/
theorem active_part (tree : Tree (Ext ℝ) (Sparse ℝ)) (scalar : Prop) (t : ℝ) (hreg : scalar → Regular tree)
    (hord : ¬ scalar → Ordered tree) (hends : ∀ p ∈ spans tree, p.1 ≠ at_ t ∧ p.2 ≠ at_ t) :
    (∀ sets, Active (fun x => x ≤ at_ t) tree sets →
      ∃ c, ActiveAt (partsOf tree) scalar (.fin t) c ∧ c.items = sets) ∧
    ((∀ sets, ¬ Active (fun x => x ≤ at_ t) tree sets) → ∀ c ∈ partsOf tree, ¬ Within c.vs c.ve (.fin t)) := by
  have hbot : (⊥ : Ext ℝ) < at_ t := WithBot.bot_lt_coe _
  have htop : at_ t < (⊤ : Ext ℝ) := WithBot.coe_lt_coe.mpr (WithTop.coe_lt_top t)
  rw [partsOf_eq]
  by_cases hs : scalar
  · obtain ⟨r, h1, h2, h3⟩ := C18_active (R := List (Sparse ℝ)) (L := Unit) (fun sets _ _ => sets) tree (hreg hs) (at_ t) ()
      hbot htop hends
    rw [evalScalar_eq] at h1
    unfold components at h1
    rw [List.find?_map] at h1
    simp only [List.map_cons, List.map_nil, List.cons.injEq, and_true, Option.map_map] at h1
    constructor
    · intro sets h
      rw [h2 sets h] at h1
      obtain ⟨c, hc, he⟩ := Option.map_eq_some_iff.mp h1
      exact ⟨partOf c, find_active _ t scalar hs c hc, he⟩
    · intro h
      rw [h3 h] at h1
      intro c hc
      obtain ⟨d, hd, rfl⟩ := List.mem_map.mp hc
      rw [holds_iff]
      exact List.find?_eq_none.mp (Option.map_eq_none_iff.mp h1) d hd
  · obtain ⟨r, h1, h2, h3⟩ := C18_active_array_partial (R := List (Sparse ℝ)) (L := Unit) (fun sets _ _ => sets) tree
      (hord hs) [(at_ t, ())] 0 (at_ t) () rfl hbot htop hends
    rw [evalArray_eq _ _ (by
      intro c hc ps
      unfold components at hc
      obtain ⟨d, -, rfl⟩ := List.mem_map.mp hc
      rfl)] at h1
    unfold components at h1
    rw [← List.map_reverse] at h1
    simp only [List.map_cons, List.map_nil, List.getElem?_cons_zero, Option.some.injEq] at h1
    rw [List.find?_map, Option.map_map] at h1
    constructor
    · intro sets h
      rw [h2 sets h] at h1
      obtain ⟨c, hc, he⟩ := Option.map_eq_some_iff.mp h1
      exact ⟨partOf c, find_active_reverse _ t scalar hs c hc, he⟩
    · intro h
      rw [h3 h] at h1
      intro c hc
      obtain ⟨d, hd, rfl⟩ := List.mem_map.mp hc
      rw [holds_iff]
      exact List.find?_eq_none.mp (Option.map_eq_none_iff.mp h1) d (List.mem_reverse.mpr hd)

/-- A valid component implies an active one. -/
theorem active_exists (l : List (Iv (Ext ℝ) (Tree (Ext ℝ) (Sparse ℝ)))) (t : ℝ) (scalar : Prop) {c} (hc : c ∈ l)
    (h : At (at_ t) c) : ∃ d ∈ l, At (at_ t) d ∧ ActiveAt (l.map partOf) scalar (.fin t) (partOf d) := by
  have hv : (decide (at_ t ≥ c.s) && decide (at_ t ≤ c.e)) = true := by
    rw [Bool.and_eq_true, decide_eq_true_iff, decide_eq_true_iff]
    exact h
  by_cases hs : scalar
  · cases hf : l.find? (fun c => decide (at_ t ≥ c.s) && decide (at_ t ≤ c.e)) with
    | none => exact absurd hv (List.find?_eq_none.mp hf c hc)
    | some d =>
      have hd := List.find?_some hf
      simp only [Bool.and_eq_true, decide_eq_true_iff] at hd
      exact ⟨d, List.mem_of_find?_eq_some hf, hd, find_active l t scalar hs d hf⟩
  · cases hf : l.reverse.find? (fun c => decide (at_ t ≥ c.s) && decide (at_ t ≤ c.e)) with
    | none => exact absurd hv (List.find?_eq_none.mp hf c (List.mem_reverse.mpr hc))
    | some d =>
      have hd := List.find?_some hf
      simp only [Bool.and_eq_true, decide_eq_true_iff] at hd
      exact ⟨d, List.mem_reverse.mp (List.mem_of_find?_eq_some hf), hd, find_active_reverse l t scalar hs d hf⟩

/-- At any finite time, ends of the validity intervals included, the active component holds sets valid at that time; if
there is no active component no sets are valid. -/
theorem valid_part (tree : Tree (Ext ℝ) (Sparse ℝ)) (scalar : Prop) (t : ℝ) (hreg : Regular tree) :
    (∃ c, ActiveAt (partsOf tree) scalar (.fin t) c ∧ ValidAt (at_ t) tree c.items) ∨
    ((∀ c ∈ partsOf tree, ¬ Within c.vs c.ve (.fin t)) ∧ (NoInstants tree → ∀ sets, ¬ ValidAt (at_ t) tree sets)) := by
  rw [partsOf_eq]
  by_cases h : ∃ c ∈ decompose tree, At (at_ t) c
  · obtain ⟨c, hc, hat⟩ := h
    obtain ⟨d, hd, hat, ha⟩ := active_exists _ t scalar hc hat
    exact .inl ⟨_, ha, component_valid _ tree d hd hat⟩
  · refine .inr ⟨fun c hc => ?_, fun hf sets hs => h (filled_covers _ hf hreg sets hs)⟩
    obtain ⟨d, hd, rfl⟩ := List.mem_map.mp hc
    exact fun hw => h ⟨d, hd, (within_toX d.s d.e t).mp hw⟩

/-! ### The property -/

/-- C75. `eval` of the model of an object of nested composed and combined coefficients, on arrays: the shape of the
result is the shape of the locations; at a point whose time has active sets (the first member of composed objects
which has any, all members of combined ones) the items are the field of the coefficients of exactly these sets; at
a point whose time has none they are NaN, and so they are for a NaN time.  At the ends of the validity intervals (and
at all other times) the items are the field of sets which are all valid at that time, ends included, or they are NaN
and no such sets exist.

Partial: combined objects have their composed members ordered in time, and for arrays of times so have all objects
(`C18_overlap` and `C18_unordered_nan` in Props/ModelEval.lean show what happens otherwise); the time is not
infinite; at the ends of the validity intervals it is not said which of the valid sets are taken, and NaN is explained
only if composed parts have sets valid for more than an instant (`C18_instant_nan`); the selections of sets are as in C74 (one unit of time,
no coefficient given twice, one kind of source). -/
theorem C75_eval_partial (alloc : Nat → Mem ℝ) (ha : ∀ N, MemOk (alloc N) N) (junk : Nat → List ℝ)
    (hj : ∀ n, (junk n).length = n) (junkX : Nat → List (X ℝ)) (hjX : ∀ n, (junkX n).length = n) (year : Int)
    (tree : Tree (Ext ℝ) (Sparse ℝ)) (opt : Options ℝ) (int : Bool)
    (hgood : ∀ sets, Selects tree sets → ∃ N, GoodSets sets opt int N)
    (time : NdArray (X ℝ)) (loc : NdArray ℝ) (lt lead : List Nat) (T : List Nat → X ℝ) (P : List Nat → V3 ℝ)
    (ht : ItemsOf time lt T) (hx : VectorsOf loc lead P) (hp : lt <+: lead)
    (hreg : lt = [] → Regular tree) (hord : lt ≠ [] → Ordered tree)
    (hT : ∀ idx, Index lt idx → T idx ≠ .ninf ∧ T idx ≠ .pinf)
    (h1 : lt = [] → loc.arr.stride.getLast? = some 1) (i o : CT) (g : V3 ℝ) (hg : ScaleOf opt.scale g) :
    ∃ out, evalCoefficients (realEnv alloc junk junkX year) tree time loc (code i) (code o) opt =
        some (.ok (lead ++ [3], out)) ∧
      out.length = (lead ++ [3]).prod ∧
      ∀ idx, Index lead idx →
        (T (idx.take lt.length) = .nan → ∀ k : Fin 3, out[rank (lead ++ [3]) (idx ++ [k.val])]? = some none) ∧
        (∀ t, T (idx.take lt.length) = .fin t → (∀ p ∈ spans tree, p.1 ≠ at_ t ∧ p.2 ≠ at_ t) →
          ((∀ sets, ¬ Active (fun x => x ≤ at_ t) tree sets) →
            ∀ k : Fin 3, out[rank (lead ++ [3]) (idx ++ [k.val])]? = some none) ∧
          ∀ sets, Active (fun x => x ≤ at_ t) tree sets →
            ∃ v : V3 ℝ, (∀ k : Fin 3, out[rank (lead ++ [3]) (idx ++ [k.val])]? = some (some (comp v k))) ∧
              (Pos i (P idx) → (∀ s, convert libm (P idx) (code i) 1 = some s →
                  1 / 10 ^ 10 ≤ |Real.cos (s.x * (Real.pi / 180))|) →
                ∃ N, MaxDegree (keptIndices opt sets) N ∧ IsField sets opt int N g i o t (P idx) v)) ∧
        ∀ t, T (idx.take lt.length) = .fin t →
          ((∀ k : Fin 3, out[rank (lead ++ [3]) (idx ++ [k.val])]? = some none) ∧
            (NoInstants tree → ∀ sets, ¬ ValidAt (at_ t) tree sets)) ∨
          ∃ sets, ValidAt (at_ t) tree sets ∧
            ∃ v : V3 ℝ, (∀ k : Fin 3, out[rank (lead ++ [3]) (idx ++ [k.val])]? = some (some (comp v k))) ∧
              (Pos i (P idx) → (∀ s, convert libm (P idx) (code i) 1 = some s →
                  1 / 10 ^ 10 ≤ |Real.cos (s.x * (Real.pi / 180))|) →
                ∃ N, MaxDegree (keptIndices opt sets) N ∧ IsField sets opt int N g i o t (P idx) v) := by
  obtain ⟨parts, hparts, hpe, hsel⟩ := C75_components tree
  obtain ⟨out, e1, e2, e3⟩ := C74_eval_partial alloc ha junk hj junkX hjX year parts opt int
    (fun c hc => hgood _ (hsel c hc)) time loc lt lead T P ht hx hp (by
      rintro idx hidx c hc ⟨a, b, x, -, -, hx, -, -⟩
      match hti : T idx with
      | .nan => rw [hti] at hx; cases hx
      | .ninf => exact absurd hti (hT idx hidx).1
      | .pinf => exact absurd hti (hT idx hidx).2
      | .fin t => exact ⟨t, rfl⟩) h1 i o g hg
  refine ⟨out, by unfold evalCoefficients; rw [hparts]; exact congrArg some e1, e2, fun idx hidx => ⟨fun hn => ?_, fun t hti hends => ?_, fun t hti => ?_⟩⟩
  · refine (e3 idx hidx).1 ?_
    rintro c hc ⟨a, b, x, -, -, hx, -, -⟩
    rw [hn] at hx
    cases hx
  · obtain ⟨a1, a2⟩ := active_part tree (lt = []) t hreg hord hends
    rw [← hpe] at a1 a2
    refine ⟨fun hn => (e3 idx hidx).1 (by rw [hti]; exact a2 hn), fun sets hs => ?_⟩
    obtain ⟨c, hc, rfl⟩ := a1 sets hs
    obtain ⟨v, b1, b2⟩ := (e3 idx hidx).2 c (by rw [hti]; exact hc)
    refine ⟨v, b1, fun p q => ?_⟩
    obtain ⟨N, t', c1, c2, c3⟩ := b2 p q
    rw [hti] at c2
    cases c2
    exact ⟨N, c1, c3⟩
  · have hr : Regular tree := by
      by_cases h : lt = []
      · exact hreg h
      · exact ordered_regular (hord h)
    rcases valid_part tree (lt = []) t hr with ⟨c, hc, hv⟩ | ⟨hn, hf⟩
    · rw [← hpe] at hc
      obtain ⟨v, b1, b2⟩ := (e3 idx hidx).2 c (by rw [hti]; exact hc)
      refine .inr ⟨c.items, hv, v, b1, fun p q => ?_⟩
      obtain ⟨N, t', c1, c2, c3⟩ := b2 p q
      rw [hti] at c2
      cases c2
      exact ⟨N, c1, c3⟩
    · rw [← hpe] at hn
      exact .inl ⟨(e3 idx hidx).1 (by rw [hti]; exact hn), hf⟩

/-! ### A concrete object -/

theorem at_le {a b : ℝ} (h : a ≤ b) : at_ a ≤ at_ b := WithBot.coe_le_coe.mpr (WithTop.coe_le_coe.mpr h)

theorem at_not_le {a b : ℝ} (h : b < a) : ¬ at_ a ≤ at_ b :=
  not_le.mpr (WithBot.coe_lt_coe.mpr (WithTop.coe_lt_coe.mpr h))

/-- Two sets following each other, combined with a set without time dependence. -/
noncomputable def sampleTree : Tree (Ext ℝ) (Sparse ℝ) :=
  .combined [.composed [.sparse (at_ 0) (at_ 500) yearsSet, .sparse (at_ 500) (at_ 1000) daysSet],
    .sparse ⊥ ⊤ constantSet]

theorem sampleTree_ordered : Ordered sampleTree := by
  refine .combined _ (by simp) ?_
  intro i hi
  simp only [List.mem_cons, List.not_mem_nil, or_false] at hi
  rcases hi with rfl | rfl
  · refine .composed _ ?_ ?_
    · intro i hi
      simp only [List.mem_cons, List.not_mem_nil, or_false] at hi
      rcases hi with rfl | rfl <;> exact .sparse _ _ _ (at_le (by norm_num))
    · simp [Before, spans]
  · exact .sparse _ _ _ bot_le

example : Regular sampleTree := by
  refine .combined _ (by simp) ?_
  have h := sampleTree_ordered
  cases h with
  | combined _ _ h => exact h

-- the sets active at the day 700 and at no later day than 1000
example : Active (fun x => x ≤ at_ 700) sampleTree [daysSet, constantSet] ∧
    (∀ sets, ¬ Active (fun x => x ≤ at_ 1001) sampleTree sets) ∧
    ∀ p ∈ spans sampleTree, p.1 ≠ at_ 700 ∧ p.2 ≠ at_ 700 := by
  refine ⟨⟨[daysSet], [constantSet], rfl, .inr ⟨?_, .inl ?_⟩, [constantSet], [], rfl, ⟨⟨bot_le, ?_⟩, rfl⟩, rfl⟩, ?_, ?_⟩
  · rintro L ⟨⟨-, h⟩, -⟩
    exact h (at_le (by norm_num))
  · exact ⟨⟨at_le (by norm_num), at_not_le (by norm_num)⟩, rfl⟩
  · simp
  · rintro sets ⟨L1, L2, -, h, -⟩
    rcases h with ⟨⟨-, h⟩, -⟩ | ⟨-, ⟨⟨-, h⟩, -⟩ | ⟨-, h⟩⟩
    · exact h (at_le (by norm_num))
    · exact h (at_le (by norm_num))
    · exact h
  · intro p hp
    simp only [sampleTree, spans, spansAll, List.append_nil, List.cons_append, List.nil_append, List.mem_cons,
      List.not_mem_nil, or_false] at hp
    rcases hp with rfl | rfl | rfl <;> norm_num

-- at the day 500 two selections are valid, after the day 1000 none
example : NoInstants sampleTree ∧ ValidAt (at_ 500) sampleTree [yearsSet, constantSet] ∧
    ValidAt (at_ 500) sampleTree [daysSet, constantSet] ∧ ∀ sets, ¬ ValidAt (at_ 1001) sampleTree sets := by
  refine ⟨.combined _ ?_, ⟨[yearsSet], [constantSet], rfl, .inl ⟨⟨at_le (by norm_num), at_le (by norm_num)⟩, rfl⟩, [constantSet], [],
      rfl, ⟨⟨bot_le, le_top⟩, rfl⟩, rfl⟩,
    ⟨[daysSet], [constantSet], rfl, .inr (.inl ⟨⟨at_le (by norm_num), at_le (by norm_num)⟩, rfl⟩), [constantSet], [],
      rfl, ⟨⟨bot_le, le_top⟩, rfl⟩, rfl⟩, ?_⟩
  · intro i hi
    simp only [List.mem_cons, List.not_mem_nil, or_false] at hi
    rcases hi with rfl | rfl
    · refine .composed _ ?_
      intro i hi
      simp only [List.mem_cons, List.not_mem_nil, or_false] at hi
      rcases hi with rfl | rfl <;> exact .sparse _ _ _ (lt_of_not_ge (at_not_le (by norm_num)))
    · exact .sparse _ _ _
  · rintro sets ⟨L1, L2, -, h, -⟩
    rcases h with ⟨⟨-, h⟩, -⟩ | ⟨⟨-, h⟩, -⟩ | h
    · exact at_not_le (by norm_num) h
    · exact at_not_le (by norm_num) h
    · exact h

-- the selections of the object, and that they meet the conditions
theorem sampleTree_good : ∀ sets, Selects sampleTree sets → ∃ N, GoodSets sets (⟨-1, -1, .scalar 3⟩ : Options ℝ) true N := by
  rintro sets ⟨L1, L2, rfl, h, L3, L4, rfl, h3, rfl⟩
  cases h3
  rcases h with rfl | rfl | h
  · exact sampleParts_good ⟨.fin 0, .fin 1827, [yearsSet, constantSet]⟩ (by simp [sampleParts])
  · have e : keptIndices (⟨-1, -1, .scalar 3⟩ : Options ℝ) [daysSet, constantSet] = [(1, 1), (2, -1)] := by
      simp [keptIndices, daysSet, constantSet, Kept]
    refine ⟨2, ⟨⟨by simp, by simp, ?_, ?_, by simp only [List.cons_append, List.nil_append, List.append_nil]; rw [e]; decide, by simp only [List.cons_append, List.nil_append, List.append_nil]; rw [e]; exact ⟨by decide, .inr ⟨(2, -1), by simp, rfl⟩⟩,
      by norm_num, by decide⟩, .inr ?_⟩⟩
    all_goals
      intro s hs
      simp only [List.mem_cons, List.cons_append, List.nil_append, List.append_nil, List.not_mem_nil, or_false] at hs
      rcases hs with rfl | rfl
    exacts [daysSet_good, constantSet_good, rfl, rfl, rfl, rfl]
  · exact h.elim

-- rows of one point at the days 700, 1001 and 250; minus the coefficient (1, 0) plus the first coordinate, minus the
-- coefficient (1, 1), minus the coefficient (2, -1)
example : (match evalCoefficients (K := ℚ) (St := Unit)
      ⟨fun c _ s v rows => some (s, none, some ⟨c.scaleGradient.x * ((rows[1]?.map Prod.fst).getD 0 + v.x),
        c.scaleGradient.y * (rows[2]?.map Prod.fst).getD 0, c.scaleGradient.z * (rows[4]?.map Prod.snd).getD 0⟩), fun _ => (),
        fun n => List.replicate n 0, fun n => List.replicate n (.fin 0), 0⟩
      (.combined [.composed
          [.sparse (((0 : ℚ) : WithTop ℚ) : Ext ℚ) (((500 : ℚ) : WithTop ℚ) : Ext ℚ)
            ⟨⟨[.fin 0, .fin 500], [((1, 0), [.fin 1, .fin 2])], .c1⟩, false, true⟩,
           .sparse (((500 : ℚ) : WithTop ℚ) : Ext ℚ) (((1000 : ℚ) : WithTop ℚ) : Ext ℚ)
            ⟨⟨[.fin 0, .fin 1000], [((1, 1), [.fin 0, .fin 1000])], .c1⟩, false, true⟩],
        .sparse ⊥ ⊤ ⟨⟨[.ninf], [((2, -1), [.fin 7])], .c0⟩, false, true⟩])
      (newArray [3] [.fin 700, .fin 1001, .fin 250])
      (newArray [3, 3] [10, 0, 0, 20, 0, 0, 30, 0, 0]) 0 0 ⟨-1, -1, .default⟩ with
    | some (.ok (shape, items)) => shape == [3, 3] && items ==
        [some (-10), some (-700), some (-7), none, none, none, some (-63/2), some 0, some (-7)]
    | _ => false) = true := by
  decide +kernel

end Verif.Props
