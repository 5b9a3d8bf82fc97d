/-
Property C78: the field of the models of the Swarm MMA products, from the variables of the files.
-/
import Verif.Model.MmaField
import Verif.Props.Files
import Verif.Props.Mma
import Verif.Props.DipoleModel

set_option linter.unusedSectionVars false

namespace Verif.Props

open Verif.Spec Verif.Spec.Text Verif.Arr Verif.Buf Verif.Geo Verif.ShPoint Verif.FullEval Verif.Coeffs Verif.ShEval Verif.Interp
open Verif.Field Verif.Intervals Verif.ModelEval Verif.Parsers Verif.Mma

/-! ### Models in the frame of a dipole holding contents -/

/-- What `eval` of the model in the frame of a dipole gives for the contents: shape of the locations, NaN where no
content is active, else the field of the active contents at the rotated position. -/
def DipoleEvaluatesFor (m : M3 ℝ) (latN lonN : ℝ) (alloc : Nat → Mem ℝ) (junk : Nat → List ℝ) (junkX : Nat → List (X ℝ)) (year : Int)
    (tree : Tree (Ext ℝ) (Sparse ℝ)) (contents : Tree (Ext ℝ) (Content ℝ)) (opt : Options ℝ) (int : Bool)
    (time : NdArray (X ℝ)) (loc : NdArray ℝ) (lt lead : List Nat) (T : List Nat → X ℝ) (P : List Nat → V3 ℝ) (i o : CT)
    (g : V3 ℝ) : Prop :=
  ∃ out, evalDipole libm (realEnv alloc junk junkX year) latN lonN tree time loc (code i) (code o) opt =
      some (.ok (lead ++ [3], out)) ∧
    out.length = (lead ++ [3]).prod ∧
    ∀ idx, Index lead idx →
      (T (idx.take lt.length) = .nan → ∀ k : Fin 3, out[rank (lead ++ [3]) (idx ++ [k.val])]? = some none) ∧
      (∀ t, T (idx.take lt.length) = .fin t → (∀ p ∈ spans contents, p.1 ≠ at_ t ∧ p.2 ≠ at_ t) →
        ((∀ cs, ¬ Active (fun x => x ≤ at_ t) contents cs) →
          ∀ k : Fin 3, out[rank (lead ++ [3]) (idx ++ [k.val])]? = some none) ∧
        ∀ cs, Active (fun x => x ≤ at_ t) contents cs →
          ∃ v : V3 ℝ, (∀ k : Fin 3, out[rank (lead ++ [3]) (idx ++ [k.val])]? = some (some (comp v k))) ∧
            (Pos i (P idx) → (∀ c s, convert libm (P idx) (code i) 2 = some c → convert libm (dot c m) 2 1 = some s →
                1 / 10 ^ 10 ≤ |Real.cos (s.x * (Real.pi / 180))| ∨ Real.cos (s.x * (Real.pi / 180)) = 0) →
              ∃ N, MaxDegree (keptOf opt cs) N ∧ DipoleField m (valuesAt opt cs t) int N g i o (P idx) v)) ∧
      ∀ t, T (idx.take lt.length) = .fin t →
        ((∀ k : Fin 3, out[rank (lead ++ [3]) (idx ++ [k.val])]? = some none) ∧
          (NoInstants contents → ∀ cs, ¬ ValidAt (at_ t) contents cs)) ∨
        ∃ cs, ValidAt (at_ t) contents cs ∧
          ∃ v : V3 ℝ, (∀ k : Fin 3, out[rank (lead ++ [3]) (idx ++ [k.val])]? = some (some (comp v k))) ∧
            (Pos i (P idx) → (∀ c s, convert libm (P idx) (code i) 2 = some c → convert libm (dot c m) 2 1 = some s →
                1 / 10 ^ 10 ≤ |Real.cos (s.x * (Real.pi / 180))| ∨ Real.cos (s.x * (Real.pi / 180)) = 0) →
              ∃ N, MaxDegree (keptOf opt cs) N ∧ DipoleField m (valuesAt opt cs t) int N g i o (P idx) v)

/-- The model evaluates to the field of the contents, given in the frame of the dipole with the given pole, for all
options, arrays of times and positions and coordinates. -/
def DipoleEvaluatesAs (latN lonN : ℝ) (tree : Tree (Ext ℝ) (Sparse ℝ)) (contents : Tree (Ext ℝ) (Content ℝ)) : Prop :=
  ∃ m, ToDipoleFrame latN lonN m ∧
  ∀ (alloc : Nat → Mem ℝ), (∀ N, MemOk (alloc N) N) → ∀ (junk : Nat → List ℝ), (∀ n, (junk n).length = n) →
    ∀ (junkX : Nat → List (X ℝ)), (∀ n, (junkX n).length = n) → ∀ (year : Int) (opt : Options ℝ) (int : Bool),
    (∀ cs, Selects contents cs → ∃ N, GoodContents cs opt int N) →
    ∀ (time : NdArray (X ℝ)) (loc : NdArray ℝ) (lt lead : List Nat) (T : List Nat → X ℝ) (P : List Nat → V3 ℝ),
    ItemsOf time lt T → VectorsOf loc lead P → lt <+: lead →
    (lt = [] → Regular contents) → (lt ≠ [] → Ordered contents) →
    (∀ idx, Index lt idx → T idx ≠ .ninf ∧ T idx ≠ .pinf) → (lt = [] → lead.length ≤ 15) →
    ∀ (i o : CT) (g : V3 ℝ), BroadScaleOf opt.scale g →
    DipoleEvaluatesFor m latN lonN alloc junk junkX year tree contents opt int time loc lt lead T P i o g

theorem dipoleField_contents {m : M3 ℝ} {sets : List (Sparse ℝ)} {cs : List (Content ℝ)} (h : List.Forall₂ HoldsContent sets cs)
    {opt : Options ℝ} {int : Bool} {N : Nat} {g : V3 ℝ} {i o : CT} {t : ℝ} {x v : V3 ℝ}
    (hf : DipoleField m (entriesAt opt sets t) int N g i o x v) : DipoleField m (valuesAt opt cs t) int N g i o x v := by
  obtain ⟨rows, h1, h2⟩ := hf
  exact ⟨rows, tableOf_imp (holds_valuesAt opt t h) h1, h2⟩

theorem same_dipole_evaluates {tree : Tree (Ext ℝ) (Sparse ℝ)} {contents : Tree (Ext ℝ) (Content ℝ)}
    (hsame : SameTree HoldsContent tree contents) (latN lonN : ℝ) : DipoleEvaluatesAs latN lonN tree contents := by
  obtain ⟨m, hm, H⟩ := C77_eval_partial latN lonN
  refine ⟨m, hm, fun alloc ha junk hj junkX hjX year opt int hgood time loc lt lead T P ht hx hp hreg hord hT h1 i o g hg => ?_⟩
  obtain ⟨out, e1, e2, e3⟩ := H alloc ha junk hj junkX hjX year tree opt int (fun sets hs => by
      obtain ⟨cs, h1, h2⟩ := same_selects tree contents hsame sets hs
      obtain ⟨N, hN⟩ := hgood cs h1
      exact ⟨N, contents_good h2 hN⟩) time loc lt lead T P ht hx hp
    (fun h => same_regular (hreg h) tree hsame) (fun h => same_ordered (hord h) tree hsame) hT h1 i o g hg
  refine ⟨out, e1, e2, fun idx hidx => ⟨(e3 idx hidx).1, fun t hti hends => ?_, fun t hti => ?_⟩⟩
  · obtain ⟨a1, a2⟩ := (e3 idx hidx).2.1 t hti (by rw [same_spans tree contents hsame]; exact hends)
    obtain ⟨b1, b2⟩ := same_active (R := HoldsContent) (fun x => x ≤ at_ t) tree contents hsame
    refine ⟨fun hn => a1 (fun sets hs => ?_), fun cs hcs => ?_⟩
    · obtain ⟨cs, hcs, -⟩ := b1 sets hs
      exact hn cs hcs
    · obtain ⟨sets, hs, hf⟩ := b2 cs hcs
      obtain ⟨v, c1, c2⟩ := a2 sets hs
      refine ⟨v, c1, fun p q => ?_⟩
      obtain ⟨N, d1, d2⟩ := c2 p q
      rw [holds_keptOf opt hf] at d1
      exact ⟨N, d1, dipoleField_contents hf d2⟩
  · obtain ⟨b1, b2⟩ := same_validAt (R := HoldsContent) (at_ t) tree contents hsame
    rcases (e3 idx hidx).2.2 t hti with ⟨hn, hv⟩ | ⟨sets, hs, v, c1, c2⟩
    · refine .inl ⟨hn, fun hF cs hcs => ?_⟩
      obtain ⟨sets, hs, -⟩ := b2 cs hcs
      exact hv (same_filled hF tree hsame) sets hs
    · obtain ⟨cs, hcs, hf⟩ := b1 sets hs
      refine .inr ⟨cs, hcs, v, c1, fun p q => ?_⟩
      obtain ⟨N, d1, d2⟩ := c2 p q
      rw [holds_keptOf opt hf] at d1
      exact ⟨N, d1, dipoleField_contents hf d2⟩

/-! ### Contents of the products -/

/-- What files in the order of time say together about a set of coefficients: values between the epochs on the lines through
the values of the neighbouring epochs (in days since 2000), from the first to the last epoch. -/
noncomputable def mmaContent (internal : Bool) (nm : List (Int × Int)) (fs : List (MmaFile ℝ)) (first last : ℝ) : Content ℝ :=
  ⟨at_ ((first - 63113904000000) / 86400000), at_ ((last - 63113904000000) / 86400000), internal, false, false,
    (nm.zip ((List.range nm.length).map (column fs))).map (fun r => (r.1, fun t v =>
      SplineAt ((fs.flatMap MmaFile.epochs).map (fun e => (e - 63113904000000) / 86400000)) r.2 t 2 v))⟩

theorem mma_leaf {nm : List (Int × Int)} {fs : List (MmaFile ℝ)} (h : FilesOk nm fs) (b : Bool) (m : MmaSet ℝ)
    (h1 : m.nm = nm) (h2 : m.t = (fs.flatMap MmaFile.epochs).map epochDays)
    (h3 : m.gh = (List.range nm.length).map (column fs)) {first last : ℝ} (hf : (fs.flatMap MmaFile.epochs).head? = some first)
    (hl : (fs.flatMap MmaFile.epochs).getLast? = some last) :
    ∃ item i, construct b m = some item ∧ daysCoeff item = some i ∧ LeafHolds i (mmaContent b nm fs first last) := by
  have hstrict : ((fs.flatMap MmaFile.epochs).map epochDays).Pairwise (· < ·) := by
    rw [List.pairwise_map]
    exact h.increasing.imp (fun h => epochDays_lt.mpr h)
  have hnd : ((fs.flatMap MmaFile.epochs).map epochDays).Nodup := hstrict.imp (fun h => h.ne)
  have hvl := values_len (fun f hf => (h.each f hf).1)
  have hcl : ∀ row ∈ (List.range nm.length).map (column fs),
      row.length = ((fs.flatMap MmaFile.epochs).map epochDays).length := by
    intro row hrow
    obtain ⟨i, -, rfl⟩ := List.mem_map.mp hrow
    unfold column
    rw [List.length_map, hvl, List.length_map]
  have hm := mkTimeDep_fin nm ((List.range nm.length).map (column fs)) _ hnd (by simp) hcl 2 .c1 (.inr ⟨rfl, rfl⟩)
  have hs := sortT_increasing hstrict
  set rows := nm.zip ((List.range nm.length).map (column fs)) with hrows
  have e1 : rows.map Prod.fst = nm := by rw [hrows, List.map_fst_zip]; simp
  have e2 : rows.map Prod.snd = (List.range nm.length).map (column fs) := by rw [hrows, List.map_snd_zip]; simp
  have hmem1 : ∀ r ∈ rows, r.1 ∈ nm := fun r hr => e1 ▸ List.mem_map_of_mem hr
  have hmem2 : ∀ r ∈ rows, r.2 ∈ (List.range nm.length).map (column fs) := fun r hr => e2 ▸ List.mem_map_of_mem hr
  have hne : rows ≠ [] := by
    intro e
    rw [e] at e1
    exact h.nonempty e1.symm
  have hh := holds_series rows ((fs.flatMap MmaFile.epochs).map epochDays) hnd (by rw [List.length_map]; exact h.two)
    (by rw [List.length_map]; exact h.size) (fun r hr => hcl _ (hmem2 r hr)) hne (fun r hr => h.orders _ (hmem1 r hr)) false b
    (at_ (epochDays first)) (at_ (epochDays last))
    (fun r t v => SplineAt ((fs.flatMap MmaFile.epochs).map (fun e => (e - 63113904000000) / 86400000)) r.2 t 2 v)
    (fun r hr t v h => h)
  rw [e1, e2] at hh
  refine ⟨⟨b, (.fin (epochDays first), .fin (epochDays last)), ⟨(sortT ((fs.flatMap MmaFile.epochs).map epochDays)).map X.fin,
    nm.zip (((List.range nm.length).map (column fs)).map (fun row =>
      (sortC ((fs.flatMap MmaFile.epochs).map epochDays) row).map X.fin)), .c1⟩⟩, _, ?_, ?_, _, rfl, hh⟩
  · unfold construct
    rw [h1, h2, h3, hm]
    simp only [Option.bind_eq_bind, Option.bind_some, hs, List.head?_map, List.getLast?_map, hf, hl, Option.map_some]
    rfl
  · unfold daysCoeff
    have hent : (nm.zip (((List.range nm.length).map (column fs)).map (fun row =>
        (sortC ((fs.flatMap MmaFile.epochs).map epochDays) row).map X.fin))).isEmpty = false := by
      have := h.nonempty
      cases nm with
      | nil => exact absurd rfl this
      | cons a l => simp [List.range_succ_eq_map]
    simp only [hent, ofX, Option.bind_eq_bind, Option.bind_some, Bool.false_eq_true, if_false]
    rfl

theorem mma_ends {nm : List (Int × Int)} {fs : List (MmaFile ℝ)} (h : FilesOk nm fs) :
    ∃ first last, (fs.flatMap MmaFile.epochs).head? = some first ∧ (fs.flatMap MmaFile.epochs).getLast? = some last ∧
      first < last := by
  have h1 := h.two
  have h2 := h.increasing
  generalize fs.flatMap MmaFile.epochs = E at h1 h2
  match E, h1 with
  | a :: b :: l, _ =>
    refine ⟨a, (b :: l).getLast (by simp), rfl, by rw [List.getLast?_cons_cons, List.getLast?_eq_some_getLast], ?_⟩
    exact (List.pairwise_cons.mp h2).1 _ (List.getLast_mem _)

theorem mma_valid {nm : List (Int × Int)} {fs : List (MmaFile ℝ)} (b : Bool) {first last : ℝ} (h : first < last) :
    (mmaContent b nm fs first last).vs ≤ (mmaContent b nm fs first last).ve := by
  show at_ (epochDays first) ≤ at_ (epochDays last)
  exact at_le (epochDays_le.mpr h.le)

/-- C78, any number of files of a 2F product: the model evaluates to the field of the coefficients of the files (which may
be evaluated for a single time and for arrays of times).

Partial: the conditions of C76 on the evaluation. -/
theorem C78_2f_partial (internal geo : Bool) (cdfs : List (Cdf ℝ)) (fs : List (MmaFile ℝ)) (nm : List (Int × Int))
    (hh : List.Forall₂ (fun c f => Holds c (names2F internal geo) f) cdfs fs) (h : FilesOk nm fs) :
    ∃ first last tree, (fs.flatMap MmaFile.epochs).head? = some first ∧ (fs.flatMap MmaFile.epochs).getLast? = some last ∧
      loadMma2F (if geo then "geo" else "sm") internal cdfs = some tree ∧
      EvaluatesAs tree (leafOf (mmaContent internal nm fs first last)) ∧
      Regular (leafOf (mmaContent internal nm fs first last)) ∧ Ordered (leafOf (mmaContent internal nm fs first last)) := by
  obtain ⟨first, last, e1, e2, e3⟩ := mma_ends h
  have h1 : cdfs.mapM (read2F (if internal then "gh" else "qs") (if geo then "geo" else "sm")) = some (fs.map setOf) := by
    have hmem : List.Forall₂ (fun c f => Holds c (names2F internal geo) f ∧ FileOk f ∧ f.nm = nm) cdfs fs := by
      have := h.each
      clear h e1 e2
      induction hh with
      | nil => exact .nil
      | cons a b ih => exact .cons ⟨a, this _ (by simp)⟩ (ih (fun f hf => this f (by simp [hf])))
    refine mma_mapM_forall₂ ?_ hmem
    intro c f hcf
    rw [show read2F (if internal then "gh" else "qs") (if geo then "geo" else "sm") c =
      readSet c (names2F internal geo).t (names2F internal geo).nm (names2F internal geo).coeff from by
        cases internal <;> cases geo <;> rfl]
    rw [readSet_ok hcf.2.1 (by rw [hcf.2.2]; exact h.nonempty) hcf.1]
  obtain ⟨m, m1, m2, m3, m4⟩ := merge_ok fs (flatMap_ne h.two) (fun f hf => (h.each f hf).1) nm
    (fun f hf => (h.each f hf).2) (h.increasing.imp (fun h => h.le))
  obtain ⟨item, i, i1, i2, s, rfl, hs⟩ := mma_leaf h internal m m2 m3 m4 e1 e2
  refine ⟨first, last, .sparse (mmaContent internal nm fs first last).vs (mmaContent internal nm fs first last).ve s, e1, e2, ?_,
    same_evaluates ⟨rfl, rfl, hs⟩, .sparse _ _ _, .sparse _ _ _ (mma_valid internal e3)⟩
  unfold loadMma2F loadSingle
  simp only [h1, m1, i1, i2, Option.bind_eq_bind, Option.bind_some]

/-- C78, any number of files of a 2C product: the model evaluates to the field of both sets of coefficients together, given in
the frame of the dipole with the pole 80.08°N 72.22°W unless other coordinates of the pole are given.

Partial: the conditions of C77 on the evaluation; no coefficient in both sets. -/
theorem C78_2c_partial (internal : Bool) (latN lonN : Option ℝ) (cdfs : List (Cdf ℝ)) (fs : List (MmaFile ℝ × MmaFile ℝ))
    (nm1 nm2 : List (Int × Int))
    (hh : List.Forall₂ (fun c f => Holds c (names2C internal).1 f.1 ∧ Holds c (names2C internal).2 f.2) cdfs fs)
    (h1 : FilesOk nm1 (fs.map Prod.fst)) (h2 : FilesOk nm2 (fs.map Prod.snd)) :
    ∃ first1 last1 first2 last2 tree lat lon,
      ((fs.map Prod.fst).flatMap MmaFile.epochs).head? = some first1 ∧
      ((fs.map Prod.fst).flatMap MmaFile.epochs).getLast? = some last1 ∧
      ((fs.map Prod.snd).flatMap MmaFile.epochs).head? = some first2 ∧
      ((fs.map Prod.snd).flatMap MmaFile.epochs).getLast? = some last2 ∧
      modelMma2C internal latN lonN cdfs = some (tree, lat, lon) ∧
      (lat = match latN with | some x => x | none => 8008 / 100) ∧ (lon = match lonN with | some x => x | none => - (7222 / 100)) ∧
      DipoleEvaluatesAs lat lon tree (combinedOf [mmaContent internal nm1 (fs.map Prod.fst) first1 last1,
        mmaContent internal nm2 (fs.map Prod.snd) first2 last2]) ∧
      Regular (combinedOf [mmaContent internal nm1 (fs.map Prod.fst) first1 last1,
        mmaContent internal nm2 (fs.map Prod.snd) first2 last2]) ∧
      Ordered (combinedOf [mmaContent internal nm1 (fs.map Prod.fst) first1 last1,
        mmaContent internal nm2 (fs.map Prod.snd) first2 last2]) := by
  have hne : fs ≠ [] := by
    have := flatMap_ne h1.two
    simpa using this
  have hd : cdfs.mapM (read2CBoth (if internal then "gh" else "qs")) =
      some ((fs.map (fun p => (setOf p.1, setOf p.2))).map (fun p => [p.1, p.2])) := by
    have hmem : List.Forall₂ (fun c f => (Holds c (names2C internal).1 f.1 ∧ FileOk f.1 ∧ f.1.nm = nm1) ∧
        (Holds c (names2C internal).2 f.2 ∧ FileOk f.2 ∧ f.2.nm = nm2)) cdfs fs := by
      have a1 := h1.each
      have a2 := h2.each
      clear h1 h2 hne
      induction hh with
      | nil => exact .nil
      | cons a b ih =>
        exact .cons ⟨⟨a.1, a1 _ (by simp)⟩, ⟨a.2, a2 _ (by simp)⟩⟩
          (ih (fun f hf => a1 f (by simp only [List.map_cons, List.mem_cons]; exact Or.inr hf))
            (fun f hf => a2 f (by simp only [List.map_cons, List.mem_cons]; exact Or.inr hf)))
    rw [List.map_map]
    refine mma_mapM_forall₂ ?_ hmem
    intro c f hcf
    have r1 := readSet_ok hcf.1.2.1 (by rw [hcf.1.2.2]; exact h1.nonempty) hcf.1.1
    have r2 := readSet_ok hcf.2.2.1 (by rw [hcf.2.2.2]; exact h2.nonempty) hcf.2.1
    have q1 : read2C (if internal then "gh" else "qs") "1" c =
        readSet c (names2C internal).1.t (names2C internal).1.nm (names2C internal).1.coeff := by
      cases internal <;> rfl
    have q2 : read2C (if internal then "gh" else "qs") "2" c =
        readSet c (names2C internal).2.t (names2C internal).2.nm (names2C internal).2.coeff := by
      cases internal <;> rfl
    unfold read2CBoth
    rw [q1, q2, r1, r2]
    rfl
  obtain ⟨m, m1, m2, m3, m4⟩ := merge_ok _ (flatMap_ne h1.two) (fun f hf => (h1.each f hf).1) nm1
    (fun f hf => (h1.each f hf).2) (h1.increasing.imp (fun h => h.le))
  obtain ⟨n, n1, n2, n3, n4⟩ := merge_ok _ (flatMap_ne h2.two) (fun f hf => (h2.each f hf).1) nm2
    (fun f hf => (h2.each f hf).2) (h2.increasing.imp (fun h => h.le))
  obtain ⟨first1, last1, a1, a2, a3⟩ := mma_ends h1
  obtain ⟨first2, last2, b1, b2, b3⟩ := mma_ends h2
  obtain ⟨item, i, i1, i2, i3⟩ := mma_leaf h1 internal m m2 m3 m4 a1 a2
  obtain ⟨jtem, j, j1, j2, j3⟩ := mma_leaf h2 internal n n2 n3 n4 b1 b2
  obtain ⟨tree, t1, t2⟩ := newCombined_holds (.cons i3 (.cons j3 .nil)) (by simp) internal (by
    intro c hc
    simp only [List.mem_cons, List.not_mem_nil, or_false] at hc
    rcases hc with rfl | rfl <;> rfl)
  have hO : Ordered (combinedOf [mmaContent internal nm1 (fs.map Prod.fst) first1 last1,
      mmaContent internal nm2 (fs.map Prod.snd) first2 last2]) := by
    refine .combined _ (by simp) ?_
    intro x hx
    simp only [List.map_cons, List.map_nil, List.mem_cons, List.not_mem_nil, or_false] at hx
    rcases hx with rfl | rfl
    exacts [.sparse _ _ _ (mma_valid internal a3), .sparse _ _ _ (mma_valid internal b3)]
  refine ⟨first1, last1, first2, last2, tree, latN.getD (mma2cPole (K := ℝ)).1, lonN.getD (mma2cPole (K := ℝ)).2, a1, a2, b1, b2, ?_, ?_, ?_, same_dipole_evaluates t2 _ _, ?_, hO⟩
  rotate_left
  · cases latN
    · norm_num [mma2cPole]
    · rfl
  · cases lonN
    · norm_num [mma2cPole]
    · rfl
  · refine .combined _ (by simp) ?_
    cases hO with
    | combined _ _ h => exact h
  · unfold modelMma2C loadMma2C loadMulti
    simp only [hd, Option.bind_eq_bind, Option.bind_some]
    rw [zipStar_pairs _ (by simpa using hne)]
    rw [List.map_map] at m1 n1
    simp only [List.map_map, List.mapM_cons, List.mapM_nil]
    rw [show (Prod.fst ∘ fun p : MmaFile ℝ × MmaFile ℝ => (setOf p.1, setOf p.2)) = setOf ∘ Prod.fst from rfl,
      show (Prod.snd ∘ fun p : MmaFile ℝ × MmaFile ℝ => (setOf p.1, setOf p.2)) = setOf ∘ Prod.snd from rfl, m1, n1]
    simp [i1, j1, i2, j2, t1]

/-! ### Examples -/

/-- A file of two epochs and two coefficients. -/
def sampleReal (e : ℝ) (nm : List (Int × Int)) : MmaFile ℝ := ⟨[e, e + 1], nm, [[1, 2], [3, 4]]⟩

theorem sampleReal_ok (a b : Int × Int) (hab : a ≠ b) (ha : |a.2| ≤ a.1) (hb : |b.2| ≤ b.1) :
    FilesOk [a, b] [sampleReal 0 [a, b], sampleReal 5 [a, b]] := by
  refine ⟨?_, ?_, by simp [sampleReal], by simp [sampleReal], by simp, ?_, by simpa using hab⟩
  · intro f hf
    simp only [List.mem_cons, List.not_mem_nil, or_false] at hf
    rcases hf with rfl | rfl <;> exact ⟨⟨by simp [sampleReal], rfl, by simp [sampleReal]⟩, rfl⟩
  · simp only [sampleReal, List.flatMap_cons, List.flatMap_nil, List.append_nil, List.cons_append, List.nil_append]
    norm_num
  · intro e he
    simp only [List.mem_cons, List.not_mem_nil, or_false] at he
    rcases he with rfl | rfl
    exacts [ha, hb]

/-- Variables of a file with two sets. -/
noncomputable def sampleBoth (e : ℝ) : Cdf ℝ :=
  ⟨fun _ => some (31, [e, e + 1]), fun n => if n = "nm_gh_1" then some (.two [[1, 0], [1, 1]]) else some (.three [[[1, -1], [2, 0]]]),
    fun _ => some (2, [[1, 2], [3, 4]])⟩

-- a model of two files with two sets
example : ∃ tree lat lon, modelMma2C true none (some 10) [sampleBoth 0, sampleBoth 5] = some (tree, lat, lon) ∧
    lat = 8008 / 100 ∧ lon = 10 := by
  have h := C78_2c_partial true none (some 10) [sampleBoth 0, sampleBoth 5]
    [(sampleReal 0 [(1, 0), (1, 1)], sampleReal 0 [(1, -1), (2, 0)]), (sampleReal 5 [(1, 0), (1, 1)], sampleReal 5 [(1, -1), (2, 0)])]
    [(1, 0), (1, 1)] [(1, -1), (2, 0)]
    (.cons ⟨⟨rfl, .inl rfl, rfl⟩, ⟨rfl, .inr rfl, rfl⟩⟩ (.cons ⟨⟨rfl, .inl rfl, rfl⟩, ⟨rfl, .inr rfl, rfl⟩⟩ .nil))
    (sampleReal_ok _ _ (by decide) (by decide) (by decide)) (sampleReal_ok _ _ (by decide) (by decide) (by decide))
  obtain ⟨_, _, _, _, tree, lat, lon, -, -, -, -, h1, h2, h3, -⟩ := h
  exact ⟨tree, lat, lon, h1, h2, h3⟩

-- its contents meet the conditions of the evaluation
example (f1 l1 f2 l2 : ℝ) (fs gs : List (MmaFile ℝ)) : ∀ cs, Selects (combinedOf [mmaContent true [(1, 0), (1, 1)] fs f1 l1,
      mmaContent true [(1, -1), (2, 0)] gs f2 l2]) cs →
    ∃ N, GoodContents cs (⟨-1, -1, .vector [2]⟩ : Options ℝ) true N := by
  rintro cs ⟨L1, L2, rfl, rfl, L3, L4, rfl, rfl, rfl⟩
  have e : keptOf (⟨-1, -1, .vector [2]⟩ : Options ℝ) [mmaContent true [(1, 0), (1, 1)] fs f1 l1,
      mmaContent true [(1, -1), (2, 0)] gs f2 l2] = [(1, 0), (1, 1), (1, -1), (2, 0)] := by
    simp [keptOf, mmaContent, Kept, List.range_succ]
  refine ⟨2, by simp, by simp, ?_, ?_, ?_, by simp, by decide, .inr ?_⟩
  · intro c hc
    simp only [List.cons_append, List.nil_append, List.append_nil, List.mem_cons, List.not_mem_nil, or_false] at hc
    rcases hc with rfl | rfl <;> rfl
  · simp only [List.cons_append, List.nil_append, List.append_nil]
    rw [e]
    decide
  · simp only [List.cons_append, List.nil_append, List.append_nil]
    rw [e]
    exact ⟨by decide, .inr ⟨(2, 0), by simp, rfl⟩⟩
  · intro c hc
    simp only [List.cons_append, List.nil_append, List.append_nil, List.mem_cons, List.not_mem_nil, or_false] at hc
    rcases hc with rfl | rfl <;> rfl

end Verif.Props
