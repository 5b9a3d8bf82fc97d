/-
C70: loading of the Swarm MMA products, from the variables of the CDF files to the evaluated
coefficients.
-/
import Verif.Props.Parsers
import Verif.Props.Time
import Verif.Model.Mma

set_option linter.unusedSectionVars false

namespace Verif.Props

open Verif.Parsers Verif.Coeffs Verif.Mma Verif.Interp Verif.Spec

/-! ### Specification -/

/-- What a file holds about one set of coefficients: the epochs (milliseconds since the year
0), the degrees and orders, and for each epoch the values of all coefficients. -/
structure MmaFile (K : Type) where
  epochs : List K
  nm : List (Int × Int)
  values : List (List K)

/-- Names of the variables: epochs, degrees and orders, values. -/
structure VarNames where
  t : String
  nm : String
  coeff : String

/-- A row of values for each epoch, a value for each coefficient. -/
structure FileOk {K : Type} (f : MmaFile K) : Prop where
  nonempty : f.epochs ≠ []
  rows : f.values.length = f.epochs.length
  cols : ∀ r ∈ f.values, r.length = f.nm.length

/-- The variables of the CDF file have the given content; the degrees and orders may be
stored in an additional record dimension. -/
structure Holds {K : Type} (cdf : Cdf K) (n : VarNames) (f : MmaFile K) : Prop where
  time : cdf.time n.t = some (31, f.epochs)
  nm : cdf.nm n.nm = some (.two (f.nm.map (fun e => [e.1, e.2]))) ∨
    cdf.nm n.nm = some (.three [f.nm.map (fun e => [e.1, e.2])])
  coeff : cdf.coeff n.coeff = some (f.nm.length, f.values)

/-- Days since 2000 of an epoch. -/
def epochDays {K : Type} [Field K] (e : K) : K := (e - 63113904000000) / 86400000

section
variable {K : Type} [Field K] [LinearOrder K] [IsStrictOrderedRing K]

/-- The set read from a file. -/
def setOf (f : MmaFile K) : MmaSet K :=
  ⟨((f.nm.map Prod.fst).min?).getD 0, ((f.nm.map Prod.fst).max?).getD 0, f.nm, f.epochs.map epochDays,
    (List.range f.nm.length).map (fun i => f.values.map (fun r => r.getD i 0))⟩

theorem mma_mapM_some {A B : Type} {g : A → Option B} {h : A → B} :
    ∀ {l : List A}, (∀ a ∈ l, g a = some (h a)) → l.mapM g = some (l.map h)
  | [], _ => rfl
  | a :: l, H => by
    rw [List.mapM_cons, H a (by simp), mma_mapM_some (fun b hb => H b (by simp [hb]))]
    rfl

theorem readSet_ok {cdf : Cdf K} {n : VarNames} {f : MmaFile K} (hf : FileOk f) (hne : f.nm ≠ [])
    (h : Holds cdf n f) : readSet cdf n.t n.nm n.coeff = some (setOf f) := by
  have h0 : column0 (f.nm.map (fun e => [e.1, e.2])) = some (f.nm.map Prod.fst) := by
    unfold column0
    rw [mma_mapM_some (h := fun r : List Int => r.getD 0 0)]
    · simp
    · intro a ha
      obtain ⟨e, -, rfl⟩ := List.mem_map.mp ha
      rfl
  have h1 : toPairs (f.nm.map (fun e => [e.1, e.2])) = some f.nm := by
    unfold toPairs
    rw [mma_mapM_some (h := fun r : List Int => (r.getD 0 0, r.getD 1 0))]
    · rw [List.map_map]
      exact congrArg some (List.map_id f.nm)
    · intro a ha
      obtain ⟨e, -, rfl⟩ := List.mem_map.mp ha
      rfl
  have h2 : transpose f.nm.length f.values =
      some ((List.range f.nm.length).map (fun i => f.values.map (fun r => r.getD i 0))) := by
    unfold transpose
    refine mma_mapM_some (fun i hi => mma_mapM_some (fun r hr => ?_))
    have := hf.cols r hr
    rw [List.mem_range] at hi
    simp [List.getD_eq_getElem?_getD, List.getElem?_eq_getElem (by omega : i < r.length)]
  have h3 : rawToMjd f.epochs 31 = some (f.epochs.map epochDays) := by
    unfold rawToMjd
    rw [if_pos (show (31 : Int) = cdfEpochType from rfl)]
    congr 1
    refine List.map_congr_left (fun e _ => ?_)
    unfold epochDays
    ring
  have hnm : ∃ a, cdf.nm n.nm = some a ∧ nmRows a = some (f.nm.map (fun e => [e.1, e.2])) := by
    rcases h.nm with h | h
    · exact ⟨_, h, rfl⟩
    · exact ⟨_, h, rfl⟩
  obtain ⟨a, a1, a2⟩ := hnm
  obtain ⟨lo, hlo⟩ : ∃ x, (f.nm.map Prod.fst).min? = some x := by
    cases e : (f.nm.map Prod.fst).min? with
    | some x => exact ⟨x, rfl⟩
    | none => rw [List.min?_eq_none_iff, List.map_eq_nil_iff] at e; exact absurd e hne
  obtain ⟨hi, hhi⟩ : ∃ x, (f.nm.map Prod.fst).max? = some x := by
    cases e : (f.nm.map Prod.fst).max? with
    | some x => exact ⟨x, rfl⟩
    | none => rw [List.max?_eq_none_iff, List.map_eq_nil_iff] at e; exact absurd e hne
  unfold readSet setOf
  simp only [h.time, a1, a2, h0, h1, h2, h3, h.coeff, hlo, hhi, Option.bind_eq_bind, Option.bind_some, Option.getD_some,
    Option.pure_def]

theorem epochDays_lt {a b : K} : epochDays a < epochDays b ↔ a < b := by
  unfold epochDays
  rw [div_lt_div_iff_of_pos_right (by norm_num)]
  constructor <;> intro h <;> linarith

theorem epochDays_le {a b : K} : epochDays a ≤ epochDays b ↔ a ≤ b := by
  unfold epochDays
  rw [div_le_div_iff_of_pos_right (by norm_num)]
  constructor <;> intro h <;> linarith

theorem setOf_ok {f : MmaFile K} (hf : FileOk f) (hs : f.epochs.Pairwise (· ≤ ·)) : MmaOk (setOf f) := by
  refine ⟨?_, ?_, ?_, ?_⟩
  · simp [setOf, hf.nonempty]
  · simp only [setOf]
    rw [List.pairwise_map]
    exact hs.imp (fun h => epochDays_le.mpr h)
  · simp [setOf]
  · intro r hr
    obtain ⟨i, -, rfl⟩ := List.mem_map.mp hr
    simp [setOf, hf.rows]

/-- Values of the coefficient `i` in all files, one after another. -/
def column (fs : List (MmaFile K)) (i : Nat) : List K := (fs.flatMap MmaFile.values).map (fun r => r.getD i 0)

/-- The merged set. -/
theorem merge_ok (fs : List (MmaFile K)) (hne : fs ≠ []) (hok : ∀ f ∈ fs, FileOk f) (nm : List (Int × Int))
    (hnm : ∀ f ∈ fs, f.nm = nm) (hs : (fs.flatMap MmaFile.epochs).Pairwise (· ≤ ·)) :
    ∃ m, mmaMerge (fs.map setOf) = some m ∧ m.nm = nm ∧ m.t = (fs.flatMap MmaFile.epochs).map epochDays ∧
      m.gh = (List.range nm.length).map (column fs) := by
  have hsf : ∀ f ∈ fs, f.epochs.Pairwise (· ≤ ·) := by
    intro f hf
    rw [List.pairwise_flatMap] at hs
    exact hs.1 f hf
  have hmo : ∀ s ∈ fs.map setOf, MmaOk s := by
    intro s h
    obtain ⟨f, hf, rfl⟩ := List.mem_map.mp h
    exact setOf_ok (hok f hf) (hsf f hf)
  have hch : (fs.map setOf).IsChain Fits := by
    apply List.Pairwise.isChain
    rw [List.pairwise_map]
    rw [List.pairwise_flatMap] at hs
    refine List.Pairwise.imp_of_mem ?_ hs.2
    intro a b ha hb h
    refine ⟨by simp [setOf, hnm a ha, hnm b hb], by simp [setOf, hnm a ha, hnm b hb], by simp [setOf, hnm a ha, hnm b hb], ?_⟩
    intro x hx y hy
    obtain ⟨x', hx', rfl⟩ := List.mem_map.mp hx
    obtain ⟨y', hy', rfl⟩ := List.mem_map.mp hy
    exact epochDays_le.mpr (h x' hx' y' hy')
  obtain ⟨m, hm⟩ := (C46_accepts (fs.map setOf) (by simpa using hne) hmo).mpr hch
  obtain ⟨g1, g2, g3, g4⟩ := C46_merge (fs.map setOf) hmo m hm
  have hmnm : m.nm = nm := by
    obtain ⟨f, l, rfl⟩ := List.exists_cons_of_ne_nil hne
    rw [(g2 (setOf f) (by simp)).1]
    exact hnm f (by simp)
  refine ⟨m, hm, hmnm, ?_, ?_⟩
  · rw [g3, List.map_map, List.map_flatMap, List.flatMap_def]
    rfl
  · apply List.ext_getElem
    · rw [g1.rows, hmnm]; simp
    · intro i h1 h2
      have hi : i < nm.length := by simpa using h2
      have e := g4 i (by rw [hmnm]; exact hi)
      have el : m.gh.getD i [] = m.gh[i] := by simp [List.getD_eq_getElem?_getD, h1]
      have c1 : (series m i).map Prod.snd = m.gh[i] := by
        unfold series
        rw [el, List.map_snd_zip]
        exact (g1.cols _ (List.getElem_mem _)).le
      rw [← c1, e, List.getElem_map, List.getElem_range, List.map_flatten, List.map_map, List.map_map]
      unfold column
      rw [List.map_flatMap, List.flatMap_def]
      congr 1
      refine List.map_congr_left (fun f hf => ?_)
      have hi' : i < f.nm.length := by rw [hnm f hf]; exact hi
      simp only [Function.comp]
      unfold series
      have es : (setOf f).gh.getD i [] = f.values.map (fun r => r.getD i 0) := by
        simp [setOf, List.getD_eq_getElem?_getD, hi']
      rw [es, List.map_snd_zip]
      simp [setOf, (hok f hf).rows]

/-- Loaded and evaluated coefficients: `item` holds the series of all files. -/
def Evaluates (item : Loaded K) (isInternal : Bool) (nm : List (Int × Int)) (fs : List (MmaFile K)) : Prop :=
  item.isInternal = isInternal ∧
  (∃ first last, (fs.flatMap MmaFile.epochs).head? = some first ∧ (fs.flatMap MmaFile.epochs).getLast? = some last ∧
    item.validity = (.fin ((first - 63113904000000) / 86400000), .fin ((last - 63113904000000) / 86400000))) ∧
  ∀ (a : K) j k, Segment ((fs.flatMap MmaFile.epochs).map (fun e => (e - 63113904000000) / 86400000)) a j k →
    ∃ tab d ej ek vj vk, callSingle item.td id (-1) (-1) (.fin a) = some (tab, d) ∧
      (fs.flatMap MmaFile.epochs)[j]? = some ej ∧ (fs.flatMap MmaFile.epochs)[k]? = some ek ∧
      (fs.flatMap MmaFile.values)[j]? = some vj ∧ (fs.flatMap MmaFile.values)[k]? = some vk ∧
      (∀ (i : Nat) (e : Int × Int), nm[i]? = some e → ∃ x y, vj[i]? = some x ∧ vk[i]? = some y ∧
        cell tab (e.1 * (e.1 + 1) / 2 + |e.2|).toNat (decide (e.2 < 0)) =
          .fin (line ((ej - 63113904000000) / 86400000) x ((ek - 63113904000000) / 86400000) y a)) ∧
      (∀ (r : Nat) c, (∀ e ∈ nm, ¬ (r = (e.1 * (e.1 + 1) / 2 + |e.2|).toNat ∧ c = decide (e.2 < 0))) →
        cell tab r c = .fin 0)

/-- Contents of the files which can be loaded together: the same coefficients in all files,
increasing epochs throughout. -/
structure FilesOk (nm : List (Int × Int)) (fs : List (MmaFile K)) : Prop where
  each : ∀ f ∈ fs, FileOk f ∧ f.nm = nm
  increasing : (fs.flatMap MmaFile.epochs).Pairwise (· < ·)
  two : 2 ≤ (fs.flatMap MmaFile.epochs).length
  size : (fs.flatMap MmaFile.epochs).length < 2 ^ 64
  nonempty : nm ≠ []
  orders : ∀ e ∈ nm, |e.2| ≤ e.1
  nodup : nm.Nodup

theorem values_len {fs : List (MmaFile K)} (h : ∀ f ∈ fs, FileOk f) :
    (fs.flatMap MmaFile.values).length = (fs.flatMap MmaFile.epochs).length := by
  induction fs with
  | nil => rfl
  | cons f l ih =>
    rw [List.flatMap_cons, List.flatMap_cons, List.length_append, List.length_append, (h f (by simp)).rows,
      ih (fun g hg => h g (by simp [hg]))]

theorem argsort_strict (ts : List K) (h : ts.Pairwise (· < ·)) : argsort (ts.map X.fin) = List.range ts.length := by
  unfold argsort
  rw [List.length_map]
  apply List.mergeSort_of_pairwise
  rw [List.pairwise_iff_getElem]
  intro i j hi hj hij
  simp only [List.length_range] at hi hj
  simp only [List.getElem_range, List.getD_eq_getElem?_getD, List.getElem?_map, List.getElem?_eq_getElem hi,
    List.getElem?_eq_getElem hj, Option.map_some, Option.getD_some, X.le]
  rw [List.pairwise_iff_getElem] at h
  simpa using (h i j hi hj hij).le

theorem construct_ok {nm : List (Int × Int)} {fs : List (MmaFile K)} (h : FilesOk nm fs) (b : Bool) (m : MmaSet K)
    (h1 : m.nm = nm) (h2 : m.t = (fs.flatMap MmaFile.epochs).map epochDays)
    (h3 : m.gh = (List.range nm.length).map (column fs)) :
    ∃ item, construct b m = some item ∧ Evaluates item b nm fs := by
  have hstrict : ((fs.flatMap MmaFile.epochs).map epochDays).Pairwise (· < ·) := by
    rw [List.pairwise_map]
    exact h.increasing.imp (fun h => epochDays_lt.mpr h)
  have hvl := values_len (fun f hf => (h.each f hf).1)
  set T := (fs.flatMap MmaFile.epochs).map epochDays with hT
  set E := fs.flatMap MmaFile.epochs with hE
  set V := fs.flatMap MmaFile.values with hV
  have hTl : T.length = E.length := by simp [hT]
  have hcl : ∀ row ∈ (List.range nm.length).map (column fs), row.length = T.length := by
    intro row hrow
    obtain ⟨i, -, rfl⟩ := List.mem_map.mp hrow
    unfold column
    rw [← hV, List.length_map, hvl, hTl]
  obtain ⟨td, t1, t2⟩ := timeDep_table nm ((List.range nm.length).map (column fs)) T
    (hstrict.imp (fun h => ne_of_lt h)) (by simp) hcl (by rw [hTl]; exact h.size) (by rw [hTl]; exact h.two)
    h.nonempty h.orders h.nodup
  have hcols : ∀ v ∈ V, v.length = nm.length := by
    intro v hv
    rw [hV, List.mem_flatMap] at hv
    obtain ⟨f, hf, hv⟩ := hv
    rw [(h.each f hf).1.cols v hv, (h.each f hf).2]
  have htimes : td.times = T.map X.fin := by
    have := t1
    unfold mkTimeDep at this
    split at this
    · cases this
    · split at this
      · cases this
      · simp only [Int.reduceEq, if_false, if_true, Option.some.injEq] at this
        rw [← this, argsort_strict T hstrict]
        apply List.ext_getElem
        · simp
        · intro i a1 a2
          have : i < T.length := by simpa using a2
          simp [List.getD_eq_getElem?_getD, this]
  have hEne : E ≠ [] := by
    intro e
    have := h.two
    rw [← hE, e] at this
    simp at this
  obtain ⟨first, hfirst⟩ : ∃ x, E.head? = some x := ⟨_, List.head?_eq_some_head hEne⟩
  obtain ⟨last, hlast⟩ : ∃ x, E.getLast? = some x := ⟨_, List.getLast?_eq_some_getLast hEne⟩
  refine ⟨⟨b, (.fin (epochDays first), .fin (epochDays last)), td⟩, ?_, rfl, ⟨first, last, hfirst, hlast, rfl⟩, ?_⟩
  · unfold construct
    rw [h1, h2, h3, t1]
    simp only [Option.bind_eq_bind, Option.bind_some, htimes, hT, List.head?_map, List.getLast?_map, hfirst, hlast,
      Option.map_some]
    rfl
  · intro a j k hs
    have hj : j < E.length := by have := hs.hj; rwa [List.length_map] at this
    have hk : k < E.length := by have := hs.hk; rwa [List.length_map] at this
    obtain ⟨tab, d, g1, g2, g3⟩ := t2 id (.fin a) a rfl j k hs
    refine ⟨tab, d, E[j], E[k], V[j]'(by omega), V[k]'(by omega), g1, List.getElem?_eq_getElem hj,
      List.getElem?_eq_getElem hk, List.getElem?_eq_getElem _, List.getElem?_eq_getElem _, ?_, g3⟩
    intro i e hie
    obtain ⟨hi, rfl⟩ := List.getElem?_eq_some_iff.mp hie
    have c1 := hcols _ (List.getElem_mem (by omega : j < V.length))
    have c2 := hcols _ (List.getElem_mem (by omega : k < V.length))
    refine ⟨(V[j]'(by omega))[i]'(by omega), (V[k]'(by omega))[i]'(by omega), by simp, by simp, ?_⟩
    have := g2 i hi
    rw [show (nm[i].1 * (nm[i].1 + 1) / 2 + |nm[i].2|).toNat = place nm[i].1 nm[i].2 from rfl, this]
    simp only [List.getElem_map, List.getElem_range, column, hT]
    have e1 : (V[j]'(by omega)).getD i 0 = (V[j]'(by omega))[i]'(by omega) := by
      rw [List.getD_eq_getElem?_getD, List.getElem?_eq_getElem (by omega), Option.getD_some]
    have e2 : (V[k]'(by omega)).getD i 0 = (V[k]'(by omega))[i]'(by omega) := by
      rw [List.getD_eq_getElem?_getD, List.getElem?_eq_getElem (by omega), Option.getD_some]
    exact congrArg₂ (fun x y => X.fin (line (epochDays E[j]) x (epochDays E[k]) y a)) e1 e2

theorem mma_mapM_forall₂ {A B C : Type} {g : A → Option B} {h : C → B} {P : A → C → Prop} (H : ∀ a c, P a c → g a = some (h c)) :
    ∀ {l : List A} {l' : List C}, List.Forall₂ P l l' → l.mapM g = some (l'.map h)
  | [], [], _ => rfl
  | a :: l, c :: l', .cons h1 h2 => by
    rw [List.mapM_cons, H a c h1, mma_mapM_forall₂ H h2]
    rfl

theorem flatMap_ne {fs : List (MmaFile K)} (h : 2 ≤ (fs.flatMap MmaFile.epochs).length) : fs ≠ [] := by
  rintro rfl
  simp at h

theorem loadSingle_ok {cdfs : List (Cdf K)} {fs : List (MmaFile K)} {n : VarNames} {nm : List (Int × Int)}
    (hh : List.Forall₂ (fun c f => Holds c n f) cdfs fs) (h : FilesOk nm fs) (b : Bool)
    (reader : Cdf K → Option (MmaSet K)) (hr : ∀ c, reader c = readSet c n.t n.nm n.coeff) :
    ∃ item, loadSingle cdfs reader b = some item ∧ Evaluates item b nm fs := by
  have h1 : cdfs.mapM reader = some (fs.map setOf) := by
    have hmem : List.Forall₂ (fun c f => Holds c n f ∧ FileOk f ∧ f.nm = nm) cdfs fs := by
      have := h.each
      clear h
      induction hh with
      | nil => exact .nil
      | cons a b ih => exact .cons ⟨a, this _ (by simp)⟩ (ih (fun f hf => this f (by simp [hf])))
    refine mma_mapM_forall₂ ?_ hmem
    intro c f hcf
    rw [hr, readSet_ok hcf.2.1 (by rw [hcf.2.2]; exact h.nonempty) hcf.1]
  obtain ⟨m, m1, m2, m3, m4⟩ := merge_ok fs (flatMap_ne h.two) (fun f hf => (h.each f hf).1) nm
    (fun f hf => (h.each f hf).2) (h.increasing.imp (fun h => h.le))
  obtain ⟨item, i1, i2⟩ := construct_ok h b m m2 m3 m4
  refine ⟨item, ?_, i2⟩
  unfold loadSingle
  simp only [h1, m1, i1, Option.bind_eq_bind, Option.bind_some]

/-! ### Properties -/

/-- The variables of the 2F products. -/
def names2F : Bool → Bool → VarNames
  | true, true => ⟨"t_gh", "nm_gh", "gh_geo"⟩
  | true, false => ⟨"t_gh", "nm_gh", "gh_sm"⟩
  | false, true => ⟨"t_qs", "nm_qs", "qs_geo"⟩
  | false, false => ⟨"t_qs", "nm_qs", "qs_sm"⟩

/-- The variables of the 2C products, of the two sets. -/
def names2C : Bool → VarNames × VarNames
  | true => (⟨"t_gh_1", "nm_gh_1", "gh_1"⟩, ⟨"t_gh_2", "nm_gh_2", "gh_2"⟩)
  | false => (⟨"t_qs_1", "nm_qs_1", "qs_1"⟩, ⟨"t_qs_2", "nm_qs_2", "qs_2"⟩)

/-- C70: a model loaded from any number of 2F files, internal or external, has the
coefficients of the files, interpolated in time between (and beyond) the epochs of all files;
the model is in the geographic frame and its validity is from the first to the last epoch. -/
theorem C70_2f_partial (internal geo : Bool) (cdfs : List (Cdf K)) (fs : List (MmaFile K)) (nm : List (Int × Int))
    (hh : List.Forall₂ (fun c f => Holds c (names2F internal geo) f) cdfs fs) (h : FilesOk nm fs) :
    ∃ item, model2F (if geo then "geo" else "sm") internal cdfs = some ⟨[item], none⟩ ∧
      Evaluates item internal nm fs := by
  obtain ⟨item, h1, h2⟩ := loadSingle_ok hh h internal
    (read2F (if internal then "gh" else "qs") (if geo then "geo" else "sm")) (by
      intro c
      cases internal <;> cases geo <;> rfl)
  refine ⟨item, ?_, h2⟩
  unfold model2F
  rw [h1]
  rfl

theorem zipStar_pairs {A : Type} (l : List (A × A)) (h : l ≠ []) :
    zipStar (l.map (fun p => [p.1, p.2])) = [l.map Prod.fst, l.map Prod.snd] := by
  have h1 : ((l.map (fun p => [p.1, p.2])).map List.length).min? = some 2 := by
    rw [List.map_map]
    have : List.map (List.length ∘ fun p : A × A => [p.1, p.2]) l = List.replicate l.length 2 := by
      rw [List.eq_replicate_iff]
      refine ⟨by simp, ?_⟩
      intro b hb
      obtain ⟨p, -, rfl⟩ := List.mem_map.mp hb
      rfl
    rw [this, List.min?_replicate]
    simp [h]
  unfold zipStar
  rw [h1]
  simp only [List.range_succ, List.range_zero, List.nil_append, List.cons_append, List.map_cons, List.map_nil,
    List.filterMap_map, Function.comp_def]
  simp [List.filterMap_eq_map']

/-- C70: a model loaded from any number of 2C files has two sets of coefficients, each as in
the files, in the dipole frame of the pole 80.08°N 72.22°W. -/
theorem C70_2c_partial (internal : Bool) (cdfs : List (Cdf K)) (fs : List (MmaFile K × MmaFile K)) (nm1 nm2 : List (Int × Int))
    (hh : List.Forall₂ (fun c f => Holds c (names2C internal).1 f.1 ∧ Holds c (names2C internal).2 f.2) cdfs fs)
    (h1 : FilesOk nm1 (fs.map Prod.fst)) (h2 : FilesOk nm2 (fs.map Prod.snd)) :
    ∃ item1 item2 lat lon, model2C internal cdfs = some ⟨[item1, item2], some (lat, lon)⟩ ∧
      lat = 8008 / 100 ∧ lon = - (7222 / 100) ∧
      Evaluates item1 internal nm1 (fs.map Prod.fst) ∧ Evaluates item2 internal nm2 (fs.map Prod.snd) := by
  have hne : fs ≠ [] := by
    have := flatMap_ne h1.two
    simpa using this
  have hd : cdfs.mapM (read2CBoth (if internal then "gh" else "qs")) =
      some ((fs.map (fun p => (setOf p.1, setOf p.2))).map (fun p => [p.1, p.2])) := by
    have hmem : List.Forall₂ (fun c f => (Holds c (names2C internal).1 f.1 ∧ FileOk f.1 ∧ f.1.nm = nm1) ∧
        (Holds c (names2C internal).2 f.2 ∧ FileOk f.2 ∧ f.2.nm = nm2)) cdfs fs := by
      have a1 := h1.each
      have a2 := h2.each
      clear h1 h2 hne
      induction hh with
      | nil => exact .nil
      | cons a b ih =>
        exact .cons ⟨⟨a.1, a1 _ (by simp)⟩, ⟨a.2, a2 _ (by simp)⟩⟩
          (ih (fun f hf => a1 f (by simp only [List.map_cons, List.mem_cons]; exact Or.inr hf))
            (fun f hf => a2 f (by simp only [List.map_cons, List.mem_cons]; exact Or.inr hf)))
    rw [List.map_map]
    refine mma_mapM_forall₂ ?_ hmem
    intro c f hcf
    have r1 := readSet_ok hcf.1.2.1 (by rw [hcf.1.2.2]; exact h1.nonempty) hcf.1.1
    have r2 := readSet_ok hcf.2.2.1 (by rw [hcf.2.2.2]; exact h2.nonempty) hcf.2.1
    have q1 : read2C (if internal then "gh" else "qs") "1" c =
        readSet c (names2C internal).1.t (names2C internal).1.nm (names2C internal).1.coeff := by
      cases internal <;> rfl
    have q2 : read2C (if internal then "gh" else "qs") "2" c =
        readSet c (names2C internal).2.t (names2C internal).2.nm (names2C internal).2.coeff := by
      cases internal <;> rfl
    unfold read2CBoth
    rw [q1, q2, r1, r2]
    rfl
  obtain ⟨m, m1, m2, m3, m4⟩ := merge_ok _ (flatMap_ne h1.two) (fun f hf => (h1.each f hf).1) nm1
    (fun f hf => (h1.each f hf).2) (h1.increasing.imp (fun h => h.le))
  obtain ⟨n, n1, n2, n3, n4⟩ := merge_ok _ (flatMap_ne h2.two) (fun f hf => (h2.each f hf).1) nm2
    (fun f hf => (h2.each f hf).2) (h2.increasing.imp (fun h => h.le))
  obtain ⟨i, i1, i2⟩ := construct_ok h1 internal m m2 m3 m4
  obtain ⟨j, j1, j2⟩ := construct_ok h2 internal n n2 n3 n4
  refine ⟨i, j, (mma2cPole (K := K)).1, (mma2cPole (K := K)).2, ?_, ?_, ?_, i2, j2⟩
  · unfold model2C loadMulti
    simp only [hd, Option.bind_eq_bind, Option.bind_some]
    rw [zipStar_pairs _ (by simpa using hne)]
    rw [List.map_map] at m1 n1
    simp only [List.map_map, List.mapM_cons, List.mapM_nil]
    rw [show (Prod.fst ∘ fun p : MmaFile K × MmaFile K => (setOf p.1, setOf p.2)) = setOf ∘ Prod.fst from rfl,
      show (Prod.snd ∘ fun p : MmaFile K × MmaFile K => (setOf p.1, setOf p.2)) = setOf ∘ Prod.snd from rfl, m1, n1]
    simp [i1, j1]
  · norm_num [mma2cPole]
  · norm_num [mma2cPole]

/-- C70: files which are not in the order of time are refused, as are files of different
coefficients. -/
theorem C70_rejects (internal geo : Bool) (cdfs : List (Cdf K)) (fs : List (MmaFile K))
    (hh : List.Forall₂ (fun c f => Holds c (names2F internal geo) f) cdfs fs)
    (hok : ∀ f ∈ fs, FileOk f ∧ f.nm ≠ [] ∧ f.epochs.Pairwise (· ≤ ·)) (f g : MmaFile K) (pre post : List (MmaFile K))
    (hfs : fs = pre ++ f :: g :: post) (hbad : f.nm ≠ g.nm ∨ ∃ x ∈ f.epochs, ∃ y ∈ g.epochs, y < x) :
    model2F (if geo then "geo" else "sm") internal cdfs = none := by
  have hmem : List.Forall₂ (fun c f => Holds c (names2F internal geo) f ∧ FileOk f ∧ f.nm ≠ []) cdfs fs := by
    clear hfs
    induction hh with
    | nil => exact .nil
    | cons a b ih =>
      refine .cons ⟨a, (hok _ (by simp)).1, (hok _ (by simp)).2.1⟩ (ih (fun f hf => hok f (by simp [hf])))
  have h1 : cdfs.mapM (read2F (if internal then "gh" else "qs") (if geo then "geo" else "sm")) = some (fs.map setOf) := by
    refine mma_mapM_forall₂ ?_ hmem
    intro c f hcf
    rw [← readSet_ok hcf.2.1 hcf.2.2 hcf.1]
    cases internal <;> cases geo <;> rfl
  have h2 : mmaMerge (fs.map setOf) = none := by
    rw [Option.eq_none_iff_forall_ne_some]
    intro m hm
    have := (C46_accepts (fs.map setOf) (by simp [hfs]) (by
      intro s hs
      obtain ⟨f, hf, rfl⟩ := List.mem_map.mp hs
      exact setOf_ok (hok f hf).1 (hok f hf).2.2)).mp ⟨m, hm⟩
    rw [hfs, List.map_append, List.map_cons, List.map_cons, List.isChain_append] at this
    have hc := this.2.1
    rw [List.isChain_cons_cons] at hc
    obtain ⟨-, -, f3, f4⟩ := hc.1
    rcases hbad with hb | ⟨x, hx, y, hy, hlt⟩
    · exact hb f3
    · have := f4 (epochDays x) (List.mem_map_of_mem hx) (epochDays y) (List.mem_map_of_mem hy)
      exact absurd (epochDays_le.mp this) (not_le.mpr hlt)
  unfold model2F loadSingle
  simp only [h1, h2, Option.bind_eq_bind, Option.bind_some, Option.bind_none]

theorem mma_mapM_none {A B : Type} {g : A → Option B} {c : A} : ∀ {l : List A}, c ∈ l → g c = none → l.mapM g = none
  | a :: l, h, hc => by
    rw [List.mapM_cons]
    rcases List.mem_cons.mp h with rfl | h
    · rw [hc]
      rfl
    · rw [mma_mapM_none h hc]
      cases g a <;> rfl

/-- C70: epochs of any other CDF type are refused, and so is an empty list of files. -/
theorem C70_rejects_type (internal geo : Bool) (cdfs : List (Cdf K))
    (h : cdfs = [] ∨ ∃ c ∈ cdfs, ∃ typ es, c.time (names2F internal geo).t = some (typ, es) ∧ typ ≠ 31) :
    model2F (if geo then "geo" else "sm") internal cdfs = none := by
  rcases h with rfl | ⟨c, hc, typ, es, h1, h2⟩
  · rfl
  · have hr : read2F (if internal then "gh" else "qs") (if geo then "geo" else "sm") c = none := by
      have : read2F (if internal then "gh" else "qs") (if geo then "geo" else "sm") c =
          readSet c (names2F internal geo).t (names2F internal geo).nm (names2F internal geo).coeff := by
        cases internal <;> cases geo <;> rfl
      rw [this, Option.eq_none_iff_forall_ne_some]
      intro s hs
      unfold readSet at hs
      rw [h1] at hs
      simp only [Option.bind_eq_bind, Option.bind_some] at hs
      obtain ⟨_, -, hs⟩ := Option.bind_eq_some_iff.mp hs
      obtain ⟨_, -, hs⟩ := Option.bind_eq_some_iff.mp hs
      obtain ⟨_, -, hs⟩ := Option.bind_eq_some_iff.mp hs
      obtain ⟨_, -, hs⟩ := Option.bind_eq_some_iff.mp hs
      obtain ⟨_, -, hs⟩ := Option.bind_eq_some_iff.mp hs
      obtain ⟨_, -, hs⟩ := Option.bind_eq_some_iff.mp hs
      obtain ⟨_, h3, -⟩ := Option.bind_eq_some_iff.mp hs
      unfold rawToMjd at h3
      rw [if_neg (show typ ≠ cdfEpochType from h2)] at h3
      cases h3
    have hm : cdfs.mapM (read2F (if internal then "gh" else "qs") (if geo then "geo" else "sm")) = none :=
      mma_mapM_none hc hr
    unfold model2F loadSingle
    simp only [hm, Option.bind_eq_bind, Option.bind_none]

/-! ### The epochs -/

/-- Number of days of a year of the (proleptic) Gregorian calendar. -/
def gregorianLength (y : Nat) : Nat := if 4 ∣ y ∧ (¬ 100 ∣ y ∨ 400 ∣ y) then 366 else 365

/-- Number of days from the year 0 to the year `y`. -/
def gregorianDays : Nat → Nat
  | 0 => 0
  | y + 1 => gregorianDays y + gregorianLength y

theorem gregorianDays_eq (y : Nat) :
    (gregorianDays y : Int) = 365 * y + (y + 3) / 4 - (y + 99) / 100 + (y + 399) / 400 := by
  induction y with
  | zero => rfl
  | succ y ih =>
    rw [gregorianDays]
    push_cast
    rw [ih]
    unfold gregorianLength
    split_ifs with h
    · omega
    · omega

/-- C70: an epoch counted in milliseconds of the Gregorian calendar from the year 0 is the
time of the other functions of the package: `ms` milliseconds after the beginning of the year
`y` are `ms / 86400000` days after the beginning of the year by the decimal year conversion. -/
theorem C70_epoch (y : Nat) (hy : 1583 ≤ y) (ms : K) :
    rawToMjd [86400000 * (gregorianDays y : K) + ms] 31 = some [((Verif.Time.yearStart y : Int) : K) + ms / 86400000] := by
  have h : ((gregorianDays y : Int)) - 730485 = Verif.Time.yearStart y := by
    rw [gregorianDays_eq]
    unfold Verif.Time.yearStart
    dsimp only
    rw [if_pos (by omega), Int.tdiv_eq_ediv_of_nonneg (by omega), Int.tdiv_eq_ediv_of_nonneg (by omega),
      Int.tdiv_eq_ediv_of_nonneg (by omega)]
    omega
  have h' : (gregorianDays y : K) = (Verif.Time.yearStart y : Int) + 730485 := by
    rw [← h]
    push_cast
    ring
  unfold rawToMjd
  rw [if_pos (show (31 : Int) = cdfEpochType from rfl), List.map_cons, List.map_nil, h']
  congr 2
  ring

end

/-! ### Cases -/

/-- A file of two coefficients and two epochs. -/
def sampleFile (e : ℚ) : MmaFile ℚ := ⟨[e, e + 1], [(1, 0), (1, -1)], [[1, 2], [3, 4]]⟩

/-- A CDF file with that content in all variables. -/
def sampleCdf (e : ℚ) : Cdf ℚ :=
  ⟨fun _ => some (31, [e, e + 1]), fun _ => some (.three [[[1, 0], [1, -1]]]), fun _ => some (2, [[1, 2], [3, 4]])⟩

theorem sampleHolds (e : ℚ) (n : VarNames) : Holds (sampleCdf e) n (sampleFile e) := ⟨rfl, Or.inr rfl, rfl⟩

theorem sampleFiles : FilesOk [(1, 0), (1, -1)] [sampleFile 0, sampleFile 5] := by
  refine ⟨?_, ?_, by simp [sampleFile], by simp [sampleFile], by simp, by simp, by simp⟩
  · intro f hf
    simp only [List.mem_cons, List.not_mem_nil, or_false] at hf
    rcases hf with rfl | rfl <;>
    · refine ⟨⟨by simp [sampleFile], rfl, ?_⟩, rfl⟩
      intro r hr
      simp only [sampleFile, List.mem_cons, List.not_mem_nil, or_false] at hr
      rcases hr with rfl | rfl <;> rfl
  · simp [sampleFile]
    norm_num

/-- The hypotheses of `C70_2f_partial` are met by two files. -/
example : ∃ item, model2F "geo" true [sampleCdf 0, sampleCdf 5] = some ⟨[item], none⟩ ∧
    Evaluates item true [(1, 0), (1, -1)] [sampleFile 0, sampleFile 5] :=
  C70_2f_partial true true _ _ _ (.cons (sampleHolds _ _) (.cons (sampleHolds _ _) .nil)) sampleFiles

/-- The hypotheses of `C70_2c_partial` are met by two files. -/
example : ∃ i j lat lon, model2C false [sampleCdf 0, sampleCdf 5] = some ⟨[i, j], some (lat, lon)⟩ ∧
    lat = 8008 / 100 ∧ lon = - (7222 / 100) ∧ Evaluates i false [(1, 0), (1, -1)] [sampleFile 0, sampleFile 5] ∧
    Evaluates j false [(1, 0), (1, -1)] [sampleFile 0, sampleFile 5] :=
  C70_2c_partial false _ [(sampleFile 0, sampleFile 0), (sampleFile 5, sampleFile 5)] _ _
    (.cons ⟨sampleHolds _ _, sampleHolds _ _⟩ (.cons ⟨sampleHolds _ _, sampleHolds _ _⟩ .nil)) sampleFiles sampleFiles

/-- The files in the other order are refused (`C70_rejects`). -/
example : model2F "geo" true [sampleCdf 5, sampleCdf 0] = none := by
  refine C70_rejects true true _ [sampleFile 5, sampleFile 0] (.cons (sampleHolds _ _) (.cons (sampleHolds _ _) .nil)) ?_
    (sampleFile 5) (sampleFile 0) [] [] rfl (Or.inr ⟨5, by simp [sampleFile], 0, by simp [sampleFile], by norm_num⟩)
  intro f hf
  simp only [List.mem_cons, List.not_mem_nil, or_false] at hf
  have key : ∀ e, f = sampleFile e → f.epochs.Pairwise (· ≤ ·) := by
    rintro e rfl
    simp [sampleFile]
  have key2 := sampleFiles.each
  rcases hf with rfl | rfl
  · exact ⟨(key2 _ (by simp)).1, by simp [sampleFile], key _ rfl⟩
  · exact ⟨(key2 _ (by simp)).1, by simp [sampleFile], key _ rfl⟩

/-- `C70_epoch`: the beginning of 2024. -/
example : rawToMjd [86400000 * (gregorianDays 2024 : ℚ) + 43200000] 31 = some [8766 + 1 / 2] := by
  rw [C70_epoch 2024 (by norm_num), show Verif.Time.yearStart ((2024 : Nat) : Int) = 8766 by decide]
  norm_num

end Verif.Props
