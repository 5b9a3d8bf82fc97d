/-
C27, C28 and the second half of C05: batch evaluation and its caches.
-/
import Verif.Lemmas.ShEval
import Verif.Props.Composed

set_option linter.unusedSectionVars false

namespace Verif.Props

open Verif.Interp Verif.Coeffs Verif.Spec Verif.Bisect Verif.ShEval

section any
variable {K I P Q R C O : Type} [Field K] [LinearOrder K]

/-- C27 for `sheval`: whatever the content of the fresh buffers, the batch gives at each
point what that point alone gives in another fresh evaluation, which is the evaluation
with the Legendre functions, longitude series and radial powers of its own
coordinates. -/
theorem C27_sheval (k : Kernel K I P Q R C O) (lp lp' : P) (lcs lcs' : Q) (rrp rrp' : R)
    (l : List (I × C)) :
    (shevalBatch k (cacheInit lp lcs rrp) l).2 =
        l.map (fun p => k.eval p.1 (k.legendre (k.clat p.1)) (k.cossin (k.clon p.1))
          (k.radpow (k.crad p.1)) p.2) ∧
      (shevalBatch k (cacheInit lp lcs rrp) l).2 =
        l.flatMap (fun p => (shevalBatch k (cacheInit lp' lcs' rrp') [p]).2) := by
  have h := (shevalBatch_ok k l _ (cacheInit_ok k lp lcs rrp)).2
  refine ⟨h, ?_⟩
  rw [h]
  induction l with
  | nil => rfl
  | cons p l ih =>
    rw [List.flatMap_cons, (shevalBatch_ok k [p] _ (cacheInit_ok k lp' lcs' rrp')).2,
      ← ih (shevalBatch_ok k l _ (cacheInit_ok k lp lcs rrp)).2]
    rfl

/-- C27: splitting a batch in two calls or permuting it changes nothing but the order. -/
theorem C27_split (k : Kernel K I P Q R C O) (lp lp' lp'' : P) (lcs lcs' lcs'' : Q)
    (rrp rrp' rrp'' : R) (l l' : List (I × C)) :
    (shevalBatch k (cacheInit lp lcs rrp) (l ++ l')).2 =
      (shevalBatch k (cacheInit lp' lcs' rrp') l).2 ++
        (shevalBatch k (cacheInit lp'' lcs'' rrp'') l').2 := by
  rw [(C27_sheval k lp lp lcs lcs rrp rrp _).1, (C27_sheval k lp' lp lcs' lcs rrp' rrp _).1,
    (C27_sheval k lp'' lp lcs'' lcs rrp'' rrp _).1, List.map_append]

/-- What the example kernel shows. -/
structure Shown where
  buffers : List (X ℚ)
  coef : List (X ℚ × X ℚ)
deriving DecidableEq

/-- A kernel whose buffers show which coordinate they were computed from. -/
def showKernel : Kernel ℚ (X ℚ × X ℚ × X ℚ) (X ℚ) (X ℚ) (X ℚ) (Tab (X ℚ))
    Shown where
  clat x := x.1
  clon x := x.2.1
  crad x := x.2.2
  legendre := id
  cossin := id
  radpow := id
  eval _ p q r c := ⟨[p, q, r], c⟩

example : (shevalBatch showKernel (cacheInit (.fin 77) (.fin 77) (.fin 77))
    [((.fin 1, .fin 2, .fin 3), []), ((.fin 1, .nan, .fin 3), []), ((.fin 4, .nan, .fin 3), [])]).2 =
    [⟨[.fin 1, .fin 2, .fin 3], []⟩, ⟨[.fin 1, .nan, .fin 3], []⟩, ⟨[.fin 4, .nan, .fin 3], []⟩] := by
  decide +kernel

/-- What the C code needs of a coefficient set beyond what `parse_coefset` checks: at
least as many nodes as the spline order, and `|m| ≤ n`. -/
structure GoodSet (s : CoefSet K) : Prop where
  kind : s.kind = .c0 ∨ s.kind = .c1
  nodes : (if s.kind = .c0 then 1 else 2) ≤ s.ct.length
  size : s.ct.length < 2 ^ 64
  len : s.cv.length = s.cm.length
  rows : ∀ row ∈ s.cv, row.length = s.ct.length
  index : ∀ e ∈ s.cm, |e.2| ≤ e.1

theorem GoodSet.setOk {sets : List (CoefSet K)} (h : ∀ s ∈ sets, GoodSet s) :
    ∀ s ∈ sets, SetOk (setsDegree sets) s := by
  intro s hs
  have g := h s hs
  refine ⟨g.kind, ?_, g.size, g.len, g.rows,
    fun e he => ⟨g.index e he, (setsDegree_spec sets).2.1 s hs e he⟩⟩
  have := g.nodes
  rcases g.kind with hk | hk <;> rw [hk] at this ⊢ <;> simpa [minNodes] using this

/-- The parser checks the shapes and the spline order. -/
theorem C05_parse (ct : List (X K)) (cv : List (List (X K))) (cm : List (Int × Int)) (o : Int) :
    ((∃ s, parseCoefset ct cv cm o = some s) ↔
      (o = 1 ∨ o = 2) ∧ cv.length = cm.length ∧ ∀ row ∈ cv, row.length = ct.length) ∧
    ∀ s, parseCoefset ct cv cm o = some s → s.ct = ct ∧ s.cv = cv ∧ s.cm = cm ∧
      s.kind = if o = 1 then .c0 else .c1 := by
  unfold parseCoefset
  have hany : (cv.any (fun row => decide (row.length ≠ ct.length))) = true ↔
      ¬ ∀ row ∈ cv, row.length = ct.length := by
    simp
  by_cases h1 : o < 1 ∨ o > 2
  · rw [if_pos h1]; simp; omega
  · rw [if_neg h1]
    by_cases h2 : cv.length ≠ cm.length
    · rw [if_pos h2]; simp [h2]
    · rw [if_neg h2]
      by_cases h3 : (cv.any (fun row => decide (row.length ≠ ct.length))) = true
      · rw [if_pos h3]
        have := hany.mp h3
        simp [this]
      · rw [if_neg h3]
        have h3' := not_not.mp (fun h => h3 (hany.mpr h))
        refine ⟨⟨fun _ => ⟨by omega, not_not.mp h2, h3'⟩, fun _ => ⟨_, rfl⟩⟩, ?_⟩
        intro s hs
        simp only [Option.some.injEq] at hs
        subst hs
        exact ⟨rfl, rfl, rfl, rfl⟩

/-- C05, second half: with enough nodes in each set and `|m| ≤ n`, `shevaltemp` never
reads or writes outside of the arrays, for any times and also for sets with common
coefficients.  Partial: the code does not make sure of these conditions, see
`C05_shevaltemp_oob` and `C05_shevaltemp_index_oob`. -/
theorem C05_shevaltemp_in_bounds_partial (k : Kernel K I P Q R (Tab (X K)) O)
    (sets : List (CoefSet K)) (hs : ∀ s ∈ sets, GoodSet s) (lp : P) (lcs : Q) (rrp : R)
    (items : List (X K × List I)) : shevaltemp k sets lp lcs rrp items ≠ none :=
  tsLoop_bounds k (setsDegree sets) sets (GoodSet.setOk hs) items _ (zeros_length _)

/-- C28, and the second half of C05 for sets with enough nodes: `shevaltemp` never
accesses anything outside of the arrays, and at each time of the batch, for each of its
points, it gives the direct evaluation of the coefficient table interpolated at that
time (interpolated values at the places of the coefficients, zero elsewhere).
Partial: asks that no coefficient appears in more than one set (or twice in a set),
which the code does not check, see `C28_overlap` and `C28_history`. -/
theorem C28_tables_partial (k : Kernel K I P Q R (Tab (X K)) O) (sets : List (CoefSet K))
    (hs : ∀ s ∈ sets, GoodSet s) (hd : (sets.flatMap (fun s => s.cm)).Nodup) (lp : P) (lcs : Q)
    (rrp : R) (items : List (X K × List I)) :
    ∃ outs, shevaltemp k sets lp lcs rrp items = some outs ∧
      List.Forall₂ (fun it os => ∃ tab : Tab (X K),
        (tab.length : Int) = (setsDegree sets + 1) * (setsDegree sets + 2) / 2 ∧
        (∀ s ∈ sets, ∀ n m row, ((n, m), row) ∈ s.cm.zip s.cv →
          interp s.kind true it.1 s.ct row =
            .ok (cell tab (n * (n + 1) / 2 + |m|).toNat (decide (m < 0)))) ∧
        (∀ (r : Nat) c, (∀ s ∈ sets, ∀ n m, (n, m) ∈ s.cm →
          ¬ ((r : Int) = n * (n + 1) / 2 + |m| ∧ c = decide (m < 0))) → cell tab r c = .fin 0) ∧
        os = it.2.map (fun x => k.eval x (k.legendre (k.clat x)) (k.cossin (k.clon x))
          (k.radpow (k.crad x)) tab)) items outs := by
  obtain ⟨outs, h1, h2⟩ := tsLoop_ok k (setsDegree sets) sets (GoodSet.setOk hs) hd items
    (tsInit sets (cacheInit lp lcs rrp)) (tsInit_inv k sets _ (cacheInit_ok k lp lcs rrp))
  refine ⟨outs, h1, h2.imp ?_⟩
  rintro it os ⟨tab, ht, ho⟩
  refine ⟨tab, ?_, ?_, ?_, ho⟩
  · have h3 := two_size (setsDegree sets)
    have h4 := (setsDegree_spec sets).1
    have h5 := coeffSize_pos _ h4
    have h6 : (setsDegree sets + 1) * (setsDegree sets + 2) = 2 * coeffSize (setsDegree sets) := by
      rw [h3]; ring
    rw [ht.len, h6]; omega
  · intro s hs' n m row hrow
    have := ht.vals s hs' _ hrow
    rw [this]
    simp only [key, rowIdx, colIdx]
    rw [add_comm]
  · intro r c hr
    apply ht.zero r c
    rintro s hs' ⟨n, m⟩ he heq
    have hn := rowIdx_nonneg n m
    simp only [key, Prod.mk.injEq] at heq
    refine hr s hs' n m he ⟨?_, heq.2.symm⟩
    rw [← heq.1]
    simp only [rowIdx] at hn ⊢
    omega

/-- C27 for `shevaltemp`: the batch gives what each time and point gives alone. -/
theorem C27_shevaltemp_partial (k : Kernel K I P Q R (Tab (X K)) O) (sets : List (CoefSet K))
    (hs : ∀ s ∈ sets, GoodSet s) (hd : (sets.flatMap (fun s => s.cm)).Nodup) (lp lp' : P)
    (lcs lcs' : Q) (rrp rrp' : R) (items : List (X K × List I)) :
    ∃ outs, shevaltemp k sets lp lcs rrp items = some outs ∧
      List.Forall₂ (fun it os => ∀ j (hj : j < it.2.length), ∃ o,
        shevaltemp k sets lp' lcs' rrp' [(it.1, [it.2[j]])] = some [[o]] ∧ os[j]? = some o)
        items outs := by
  have hs' := GoodSet.setOk hs
  obtain ⟨outs, h1, h2⟩ := tsLoop_ok k (setsDegree sets) sets hs' hd items
    (tsInit sets (cacheInit lp lcs rrp)) (tsInit_inv k sets _ (cacheInit_ok k lp lcs rrp))
  refine ⟨outs, h1, h2.imp ?_⟩
  rintro it os ⟨tab, ht, ho⟩ j hj
  obtain ⟨outs', g1, g2⟩ := tsLoop_ok k (setsDegree sets) sets hs' hd [(it.1, [it.2[j]])]
    (tsInit sets (cacheInit lp' lcs' rrp')) (tsInit_inv k sets _ (cacheInit_ok k lp' lcs' rrp'))
  cases g2 with
  | @cons _ os' _ l' hx hnil =>
    cases hnil
    obtain ⟨tab', ht', ho'⟩ := hx
    have heq := tableAt_unique _ sets hs' it.1 tab tab' ht ht'
    subst heq
    refine ⟨direct k it.2[j] tab, ?_, ?_⟩
    · unfold shevaltemp
      rw [g1, ho']
      rfl
    · rw [ho, List.getElem?_map, List.getElem?_eq_getElem hj]
      rfl

/-- C27 for `sheval2dfs`: at each pair of times the coefficients are those computed
afresh from the zero table. -/
theorem C27_sheval2dfs {A : Type} (k : Kernel K I P Q R (Tab (X K)) O)
    (fourier : X K → X K → A → X K) (cm : List (Int × Int)) (ab : List A)
    (hl : ab.length = cm.length) (hcm : ∀ e ∈ cm, |e.2| ≤ e.1) (hd : cm.Nodup)
    (lp : P) (lcs : Q) (rrp : R) (items : List ((X K × X K) × List I)) :
    ∃ outs, sheval2dfs k fourier cm ab lp lcs rrp items = some outs ∧
      List.Forall₂ (fun it os => ∃ tab : Tab (X K),
        (∀ n m a, ((n, m), a) ∈ cm.zip ab →
          cell tab (n * (n + 1) / 2 + |m|).toNat (decide (m < 0)) = fourier it.1.1 it.1.2 a) ∧
        (∀ (r : Nat) c, (∀ n m, (n, m) ∈ cm →
          ¬ ((r : Int) = n * (n + 1) / 2 + |m| ∧ c = decide (m < 0))) → cell tab r c = .fin 0) ∧
        os = it.2.map (fun x => k.eval x (k.legendre (k.clat x)) (k.cossin (k.clon x))
          (k.radpow (k.crad x)) tab)) items outs := by
  have hdeg := cm_foldl_max cm 0
  obtain ⟨outs, h1, h2⟩ := fsLoop_ok k fourier cm ab (cm.foldl (fun d e => max d e.1) 0) hl
    (fun e he => ⟨hcm e he, hdeg.2.1 e he⟩) hd items
    ⟨zeros (X K) (cm.foldl (fun d e => max d e.1) 0), .nan, .nan, cacheInit lp lcs rrp⟩
    ⟨zeros_length _, fun r c _ => cell_zeros _ r c, Or.inl rfl, cacheInit_ok k lp lcs rrp⟩
  refine ⟨outs, h1, h2.imp ?_⟩
  rintro it os ⟨tab, ht, ho⟩
  refine ⟨tab, ?_, ?_, ho⟩
  · intro n m a ha
    have := ht.vals _ ha
    simp only [key, rowIdx, colIdx] at this
    rw [add_comm]; exact this
  · intro r c hr
    apply ht.zero r c
    rintro ⟨n, m⟩ he heq
    have hn := rowIdx_nonneg n m
    simp only [key, Prod.mk.injEq] at heq
    refine hr n m he ⟨?_, heq.2.symm⟩
    rw [← heq.1]
    simp only [rowIdx] at hn ⊢
    omega

/-- The sum over tables with at most one non-zero term. -/
theorem foldl_zero (results : List (Tab (X K) × Int)) (r : Nat) (c : Bool) (a : X K)
    (h : ∀ x ∈ results, cell x.1 r c = .fin 0) :
    results.foldl (fun s x => s + cell x.1 r c) a = a := by
  induction results generalizing a with
  | nil => rfl
  | cons x l ih =>
    rw [List.foldl_cons, h x (by simp), show (X.fin 0 : X K) = 0 from rfl, add_zero]
    exact ih a (fun y hy => h y (List.mem_cons_of_mem _ hy))

theorem kept_iff (td : TimeDep K) (hne : td.entries ≠ []) (lo hi : Int)
    (e : (Int × Int) × List (X K)) :
    e ∈ (subsetDegree td.entries lo hi).2 ↔
      e ∈ td.entries ∧ (lo < 0 ∨ lo ≤ e.1.1) ∧ (hi < 0 ∨ e.1.1 ≤ hi) := by
  rw [(subsetDegree_spec td.entries hne lo hi).1, List.mem_filter]
  simp

/-- A sparse time-dependent set as made by the constructor. -/
structure GoodTD (td : TimeDep K) : Prop where
  kind : td.kind = .c0 ∨ td.kind = .c1
  ne : td.entries ≠ []
  index : ∀ e ∈ td.entries, |e.1.2| ≤ e.1.1
  nodup : (td.entries.map Prod.fst).Nodup
  rows : ∀ e ∈ td.entries, e.2.length = td.times.length
  nodes : minNodes td.kind ≤ td.times.length
  size : td.times.length < 2 ^ 64

theorem GoodTD.goodSet {td : TimeDep K} (h : GoodTD td) (lo hi : Int) :
    GoodSet (coefSetOf td lo hi) := by
  refine ⟨h.kind, ?_, h.size, by simp [coefSetOf], ?_, ?_⟩
  · have := h.nodes
    have h2 := h.kind
    unfold coefSetOf
    rcases h2 with hk | hk <;> simp only [hk] at this ⊢ <;> simpa [minNodes] using this
  · intro row hrow
    obtain ⟨e, he, rfl⟩ := List.mem_map.mp hrow
    exact h.rows e ((kept_iff td h.ne lo hi e).mp he).1
  · intro nm hnm
    obtain ⟨e, he, rfl⟩ := List.mem_map.mp hnm
    exact h.index e ((kept_iff td h.ne lo hi e).mp he).1

theorem zip_map_fst_snd {A B : Type} (l : List (A × B)) : (l.map Prod.fst).zip (l.map Prod.snd) = l := by
  induction l with
  | nil => rfl
  | cons a l ih => simp [ih]

/-- One set: the C table and the Python table have the same cells at the places of the
set and zeros elsewhere. -/
theorem single_cells (td : TimeDep K) (h : GoodTD td) (conv : X K → X K) (lo hi : Int) (t : X K) :
    ∃ tab, callSingle td conv lo hi t = some (tab, (subsetDegree td.entries lo hi).1) ∧
      SetAt (conv t) (coefSetOf td lo hi) tab ∧
      ∀ r c, (∀ e ∈ (coefSetOf td lo hi).cm, key e ≠ (r, c)) → cell tab r c = .fin 0 := by
  have hex : ∀ e ∈ td.entries, ∃ x, interp td.kind true (conv t) td.times e.2 = .ok x := by
    intro e he
    have hnn := interpPoint_safe td.kind true (conv t) td.times e.2 (h.rows e he).symm h.nodes h.size
    obtain ⟨x, hx⟩ := Option.ne_none_iff_exists'.mp hnn
    refine ⟨x, ?_⟩
    unfold interp
    rw [if_neg (by simpa using (h.rows e he).symm), if_neg (by have := h.nodes; omega), hx]
  obtain ⟨tab, h1, h2, h3, h4⟩ := callSingle_spec td conv lo hi t
    (fun row => match interp td.kind true (conv t) td.times row with | .ok x => x | _ => .nan)
    h.ne h.index h.nodup (by
      intro e he
      obtain ⟨x, hx⟩ := hex e he
      rw [hx])
  refine ⟨tab, h1, ?_, ?_⟩
  · intro e he
    simp only [coefSetOf, zip_map_fst_snd] at he ⊢
    obtain ⟨he1, he2⟩ := (kept_iff td h.ne lo hi e).mp he
    have := h3 e he1 he2
    obtain ⟨x, hx⟩ := hex e he1
    rw [hx] at this ⊢
    simp only [key]
    rw [this]
  · intro r c hrc
    refine h4 r c (fun e he hk => ?_)
    exact hrc e.1 (List.mem_map.mpr ⟨e, (kept_iff td h.ne lo hi e).mpr ⟨he, hk⟩, rfl⟩)

theorem degree_single (td : TimeDep K) (h : GoodTD td) (lo hi : Int) :
    (coefSetOf td lo hi).cm.foldl (fun d e => max d e.1) 0 = (subsetDegree td.entries lo hi).1 := by
  obtain ⟨-, h0, h1⟩ := subsetDegree_spec td.entries h.ne lo hi
  obtain ⟨g1, g2, g3⟩ := cm_foldl_max (coefSetOf td lo hi).cm 0
  by_cases hn : (subsetDegree td.entries lo hi).2 = []
  · rw [h0 hn]
    simp [coefSetOf, hn]
  · obtain ⟨h2, e, he, heq⟩ := h1 hn
    have he' : e.1 ∈ (coefSetOf td lo hi).cm := List.mem_map.mpr ⟨e, he, rfl⟩
    apply le_antisymm
    · rcases g3 with g3 | ⟨nm, hnm, g3⟩
      · rw [g3, ← heq]
        exact le_trans (abs_nonneg _) (h.index e ((kept_iff td h.ne lo hi e).mp he).1)
      · rw [← g3]
        obtain ⟨e2, he2, rfl⟩ := List.mem_map.mp hnm
        exact h2 e2 he2
    · rw [← heq]; exact g2 _ he'

/-- C28: for the coefficient sets which a combination of sparse time-dependent
coefficients hands over, `shevaltemp` gives exactly what the default method gives:
`sheval` with the table of the combined coefficients at that time (the entry-wise sum),
and the degree is the same.  Partial: no coefficient in more than one member. -/
theorem C28_default_partial [IsStrictOrderedRing K] (k : Kernel K I P Q R (Tab (X K)) O) (tds : List (TimeDep K))
    (hg : ∀ td ∈ tds, GoodTD td) (conv : X K → X K) (lo hi : Int)
    (valid : X K → Bool) (d md : Int) (b : Bool)
    (hd : (tds.flatMap (fun td => td.entries.map Prod.fst)).Nodup)
    (lp : P) (lcs : Q) (rrp : R) (items : List (X K × List I)) :
    ∃ outs, shevaltemp k (tds.map (fun td => coefSetOf td lo hi)) lp lcs rrp
        (items.map (fun it => (conv it.1, it.2))) = some outs ∧
      List.Forall₂ (fun it os => ∃ tab,
        combinedSingle (tds.map (fun td => (⟨valid, d, md, b, callSingle td conv lo hi,
          callMulti td conv lo hi⟩ : Member (X K) (X K)))) it.1 =
          some (tab, setsDegree (tds.map (fun td => coefSetOf td lo hi))) ∧
        os = (shevalBatch k (cacheInit lp lcs rrp) (it.2.map (fun x => (x, tab)))).2)
        items outs := by
  set sets := tds.map (fun td => coefSetOf td lo hi) with hsets
  have hgs : ∀ s ∈ sets, GoodSet s := by
    intro s hs
    obtain ⟨td, htd, rfl⟩ := List.mem_map.mp hs
    exact (hg td htd).goodSet lo hi
  have hsub : ∀ td ∈ tds, (coefSetOf td lo hi).cm.Sublist (td.entries.map Prod.fst) := by
    intro td htd
    unfold coefSetOf
    simp only
    rw [(subsetDegree_spec td.entries (hg td htd).ne lo hi).1]
    exact List.Sublist.map _ List.filter_sublist
  have hdis : (sets.flatMap (fun s => s.cm)).Nodup := by
    refine hd.sublist ?_
    rw [hsets]
    clear hd hgs hsets
    induction tds with
    | nil => simp
    | cons td l ih =>
      simp only [List.map_cons, List.flatMap_cons]
      exact (hsub td (by simp)).append (ih (fun x hx => hg x (List.mem_cons_of_mem _ hx))
        (fun x hx => hsub x (List.mem_cons_of_mem _ hx)))
  have hok := GoodSet.setOk hgs
  obtain ⟨outs, h1, h2⟩ := tsLoop_ok k (setsDegree sets) sets hok hdis
    (items.map (fun it => (conv it.1, it.2)))
    (tsInit sets (cacheInit lp lcs rrp)) (tsInit_inv k sets _ (cacheInit_ok k lp lcs rrp))
  refine ⟨outs, h1, ?_⟩
  rw [List.forall₂_map_left_iff] at h2
  refine h2.imp ?_
  rintro ⟨t, xs⟩ os ⟨tab, ht, ho⟩
  have hcoh : ∀ i ∈ tds.map (fun td => (⟨valid, d, md, b, callSingle td conv lo hi,
      callMulti td conv lo hi⟩ : Member (X K) (X K))), Coherent i := by
    intro i hi'
    obtain ⟨td, htd, rfl⟩ := List.mem_map.mp hi'
    have g := hg td htd
    exact C14_sparse_coherent td conv lo hi valid d md b g.ne g.index g.nodup g.rows g.nodes g.size
  obtain ⟨results, tab', D, g1, g2, g3, g4, g5, g6, g7⟩ := combinedSingle_spec _ hcoh t
  rw [List.forall₂_map_left_iff] at g4
  -- the members one by one
  have hres : List.Forall₂ (fun td r => td ∈ tds ∧ r.2 = (coefSetOf td lo hi).cm.foldl (fun d e => max d e.1) 0 ∧
      SetAt (conv t) (coefSetOf td lo hi) r.1 ∧
      ∀ ro c, (∀ e ∈ (coefSetOf td lo hi).cm, key e ≠ (ro, c)) → cell r.1 ro c = .fin 0) tds results := by
    rw [List.forall₂_iff_get] at g4 ⊢
    refine ⟨g4.1, fun j hj hj' => ?_⟩
    have hm : tds.get ⟨j, hj⟩ ∈ tds := List.get_mem _ _
    obtain ⟨tb, e1, e2, e3⟩ := single_cells _ (hg _ hm) conv lo hi t
    have := g4.2 j hj hj'
    simp only at this
    rw [e1] at this
    simp only [Option.some.injEq] at this
    rw [← this]
    exact ⟨hm, (degree_single _ (hg _ hm) lo hi).symm, e2, e3⟩
  have hD : D = setsDegree sets := by
    have key1 : ∀ r ∈ results, ∃ td ∈ tds, r.2 = (coefSetOf td lo hi).cm.foldl (fun d e => max d e.1) 0 := by
      intro r hr
      obtain ⟨j, hj, rfl⟩ := List.getElem_of_mem hr
      rw [List.forall₂_iff_get] at hres
      have := hres.2 j (by rw [hres.1]; exact hj) hj
      exact ⟨_, this.1, this.2.1⟩
    have key2 : ∀ td ∈ tds, ∃ r ∈ results, r.2 = (coefSetOf td lo hi).cm.foldl (fun d e => max d e.1) 0 := by
      intro td htd
      obtain ⟨j, hj, rfl⟩ := List.getElem_of_mem htd
      rw [List.forall₂_iff_get] at hres
      have hj' : j < results.length := by rw [← hres.1]; exact hj
      exact ⟨results[j], List.getElem_mem _, (hres.2 j hj hj').2.1⟩
    obtain ⟨f1, f2, f3⟩ := sets_foldl_max sets 0
    apply le_antisymm
    · rcases g6 with g6 | ⟨r, hr, g6⟩
      · rw [g6]; exact f1
      · obtain ⟨td, htd, e⟩ := key1 r hr
        rw [← g6, e]
        exact f2 _ (List.mem_map.mpr ⟨td, htd, rfl⟩)
    · rcases f3 with f3 | ⟨s, hs, f3⟩
      · unfold setsDegree; rw [f3]; exact g2
      · obtain ⟨td, htd, rfl⟩ := List.mem_map.mp hs
        obtain ⟨r, hr, e⟩ := key2 td htd
        unfold setsDegree
        rw [← f3, ← e]
        exact g5 r hr
  have htab : TableAt (setsDegree sets) sets (conv t) tab' := by
    refine ⟨by rw [hD] at g3; omega, ?_, ?_⟩
    · intro s hs e he
      obtain ⟨td, htd, rfl⟩ := List.mem_map.mp hs
      rw [g7]
      clear g1 g3 g4 g5 g6 g7 hD ht ho h1 h2 hok hgs hs hcoh
      have hkey := hdis
      rw [hsets] at hkey
      clear hdis hsets
      clear hd
      revert hkey
      have hsum : ∀ (tds' : List (TimeDep K)) (results' : List (Tab (X K) × Int)),
          (∀ x ∈ tds', x ∈ tds) → List.Forall₂ (fun td r => td ∈ tds ∧ r.2 = (coefSetOf td lo hi).cm.foldl (fun d e => max d e.1) 0 ∧
      SetAt (conv t) (coefSetOf td lo hi) r.1 ∧
      ∀ ro c, (∀ e ∈ (coefSetOf td lo hi).cm, key e ≠ (ro, c)) → cell r.1 ro c = .fin 0) tds' results' →
          ((tds'.map (fun td => coefSetOf td lo hi)).flatMap (fun s => s.cm)).Nodup → td ∈ tds' →
          interp (coefSetOf td lo hi).kind true (conv t) (coefSetOf td lo hi).ct e.2 =
            .ok (results'.foldl (fun s x => s + cell x.1 (key e.1).1 (key e.1).2) 0) := by
        intro tds' results' hmem hF
        induction hF with
        | nil => intro _ h; simp at h
        | @cons td' r' l l' hx hl ih =>
          intro hnd htd'
          rw [List.map_cons, List.flatMap_cons, List.nodup_append] at hnd
          obtain ⟨n1, n2, n3⟩ := hnd
          have hec : e.1 ∈ (coefSetOf td lo hi).cm := (List.of_mem_zip (show (e.1, e.2) ∈ _ from he)).1
          have hidx : ∀ x ∈ tds, ∀ nm ∈ (coefSetOf x lo hi).cm, |nm.2| ≤ nm.1 := fun x hx nm hnm =>
            ((hg x hx).goodSet lo hi).index nm hnm
          rw [List.foldl_cons]
          by_cases hthis : e.1 ∈ (coefSetOf td' lo hi).cm
          · -- then it is this member, the others have zero there
            have htd0 : td = td' := by
              rcases List.mem_cons.mp htd' with h | h
              · exact h
              · exfalso
                refine n3 e.1 hthis e.1 (List.mem_flatMap.mpr ⟨_, List.mem_map.mpr ⟨td, h, rfl⟩, hec⟩) rfl
            subst htd0
            rw [foldl_zero]
            · rw [zero_add]
              exact hx.2.2.1 e he
            · intro x hxm
              obtain ⟨j, hj, rfl⟩ := List.getElem_of_mem hxm
              rw [List.forall₂_iff_get] at hl
              have hj' : j < l.length := by rw [hl.1]; exact hj
              have hh := hl.2 j hj' hj
              refine hh.2.2.2 _ _ (fun nm hnm heq => ?_)
              have := key_inj (hidx _ hh.1 nm hnm) (hidx _ htd e.1 hec) heq
              rw [this] at hnm
              exact n3 e.1 hthis e.1 (List.mem_flatMap.mpr ⟨_, List.mem_map.mpr
                ⟨_, List.get_mem l ⟨j, hj'⟩, rfl⟩, hnm⟩) rfl
          · have hin : td ∈ l := by
              rcases List.mem_cons.mp htd' with h | h
              · rw [h] at hec; exact absurd hec hthis
              · exact h
            rw [hx.2.2.2 _ _ (fun nm hnm heq => ?_), show (X.fin 0 : X K) = 0 from rfl, add_zero]
            · exact ih (fun x hx' => hmem x (List.mem_cons_of_mem _ hx')) n2 hin
            · have := key_inj (hidx _ hx.1 nm hnm) (hidx _ htd e.1 hec) heq
              rw [this] at hnm
              exact hthis hnm
      exact fun hkey => hsum tds results (fun x hx => hx) hres hkey htd
    · intro r c hrc
      rw [g7, foldl_zero]
      · rfl
      · intro x hxm
        obtain ⟨j, hj, rfl⟩ := List.getElem_of_mem hxm
        rw [List.forall₂_iff_get] at hres
        have hj' : j < tds.length := by rw [hres.1]; exact hj
        have hh := hres.2 j hj' hj
        exact hh.2.2.2 _ _ (fun nm hnm => hrc _ (List.mem_map.mpr ⟨_, hh.1, rfl⟩) nm hnm)
  have heq := tableAt_unique _ sets hok (conv t) tab tab' ht htab
  refine ⟨tab', by rw [g1, hD], ?_⟩
  rw [ho, heq, (shevalBatch_ok k _ _ (cacheInit_ok k lp lcs rrp)).2, List.map_map]
  rfl

end any

section witnesses

/-- A set with the single coefficient (1, 0) and constant value. -/
def constSet (v : ℚ) : CoefSet ℚ := ⟨[.fin 0], [[.fin v]], [(1, 0)], .c0⟩

/-- A set with the single coefficient (1, 0) growing linearly from 0 to 10. -/
def linSet : CoefSet ℚ := ⟨[.fin 0, .fin 1], [[.fin 0, .fin 10]], [(1, 0)], .c1⟩

/-- The table with the only coefficient (1, 0). -/
def tab10 (v : ℚ) : Tab (X ℚ) := [(.fin 0, .fin 0), (.fin v, .fin 0), (.fin 0, .fin 0)]

example : GoodSet (constSet 1) ∧ GoodSet linSet := by
  constructor
  · exact ⟨Or.inl rfl, by decide, by decide, rfl, by decide, by decide⟩
  · exact ⟨Or.inr rfl, by decide, by decide, rfl, by decide, by decide⟩

/-- An evaluation with a change of the time and a return to the first one. -/
example : shevaltemp showKernel [linSet, ⟨[.fin 0, .fin 1], [[.fin 3, .fin 4]], [(1, -1)], .c0⟩]
    (.fin 77) (.fin 77) (.fin 77)
    [(.fin (1/2), [(.fin 1, .fin 2, .fin 3)]), (.fin 2, [(.fin 1, .fin 2, .fin 3)]),
      (.fin (1/2), [(.fin 1, .fin 2, .fin 3)])] =
    some [[⟨[.fin 1, .fin 2, .fin 3], [(.fin 0, .fin 0), (.fin 5, .fin 0), (.fin 0, .fin 3)]⟩],
      [⟨[.fin 1, .fin 2, .fin 3], [(.fin 0, .fin 0), (.fin 20, .fin 0), (.fin 0, .fin 4)]⟩],
      [⟨[.fin 1, .fin 2, .fin 3], [(.fin 0, .fin 0), (.fin 5, .fin 0), (.fin 0, .fin 3)]⟩]] := by
  decide +kernel

/-- Some point. -/
def somePoint : X ℚ × X ℚ × X ℚ := (.fin 1, .fin 2, .fin 3)

/-- C28 fails when a coefficient is in two sets: the last set replaces the value instead
of being added (the sum would be 3). -/
theorem C28_overlap :
    shevaltemp showKernel [constSet 1, constSet 2] .nan .nan .nan [(.fin 0, [somePoint])] =
      some [[⟨[.fin 1, .fin 2, .fin 3], tab10 2⟩]] := by
  decide +kernel

/-- Then even the independence of the history is lost: after a piecewise linear and a
piecewise constant set with a common coefficient the result at the time 1/2 depends on
whether another time was evaluated before. -/
theorem C28_history :
    shevaltemp showKernel [linSet, constSet 3] .nan .nan .nan [(.fin (1/2), [somePoint])] =
        some [[⟨[.fin 1, .fin 2, .fin 3], tab10 3⟩]] ∧
      shevaltemp showKernel [linSet, constSet 3] .nan .nan .nan
          [(.fin 0, [somePoint]), (.fin (1/2), [somePoint])] =
        some [[⟨[.fin 1, .fin 2, .fin 3], tab10 3⟩], [⟨[.fin 1, .fin 2, .fin 3], tab10 5⟩]] := by
  decide +kernel

/-- C05 fails for `shevaltemp`: a single node with spline order 2 passes the parser and
the evaluation reads outside of the array of the node times. -/
theorem C05_shevaltemp_oob :
    ∃ s, parseCoefset [.fin 0] [[.fin (1 : ℚ)]] [(1, 0)] 2 = some s ∧
      shevaltemp showKernel [s] .nan .nan .nan [(.fin 0, [somePoint])] = none :=
  ⟨_, rfl, by decide +kernel⟩

/-- The degree and order are not checked either: an order larger than the degree writes
outside of the coefficient table. -/
theorem C05_shevaltemp_index_oob :
    ∃ s, parseCoefset [.fin 0] [[.fin (1 : ℚ)]] [(1, 2)] 1 = some s ∧
      shevaltemp showKernel [s] .nan .nan .nan [(.fin 0, [somePoint])] = none :=
  ⟨_, rfl, by decide +kernel⟩

end witnesses

end Verif.Props
