/-
Property C74: the evaluation of spherical harmonic models on arrays of times and locations.
-/
import Verif.Spec.Field
import Verif.Props.TimedArrays
import Verif.Props.ElemArrays
import Verif.Props.Shapes
import Verif.Props.FullEval
import Verif.Lemmas.ModelEval

set_option linter.unusedSectionVars false

namespace Verif.Props

open Verif.Spec Verif.Arr Verif.Buf Verif.Geo Verif.ShPoint Verif.FullEval Verif.Coeffs Verif.ShEval Verif.Interp Verif.Field
open Verif.ModelEval (pick put)

/-! ### The method -/

/-- **C74**: components of sparse coefficients are all evaluated by `shevaltemp`. -/
theorem C74_method {K : Type} (c : Component K) : c.method = .interpolated := by
  unfold Component.method
  split
  · rfl
  · rename_i l _
    rw [if_neg]
    have h : ∀ s ∈ c.items.flatMap Sparse.timeScales, s = "MJD2000" := by
      intro s hs
      obtain ⟨x, -, hx⟩ := List.mem_flatMap.mp hs
      unfold Sparse.timeScales at hx
      simpa using hx
    have key : ∀ l : List String, (∀ s ∈ l, s = "MJD2000") → l.eraseDups.length ≤ 1 := by
      intro l hl
      match l with
      | [] => simp
      | a :: l =>
        have : l.filter (fun b => !(b == a)) = [] := by
          rw [List.filter_eq_nil_iff]
          intro b hb
          rw [hl b (by simp [hb]), hl a (by simp)]
          simp
        rw [List.eraseDups_cons, this]
        simp
    have := key _ h
    omega

/-! ### Flat arrays -/

theorem readAll_eq {A : Type} (mem : Int → Option A) : ∀ (dims : List Nat) (st : List Int) (p : Int) (F : List Nat → A),
    st.length = dims.length → (∀ idx, Index dims idx → elem mem p st idx = some (F idx)) →
    readAll mem dims st p = some ((indices dims).map F)
  | [], [], p, F, _, h => by
    have := h [] .nil
    simp only [elem, List.zipWith_nil_left, List.sum_nil, add_zero] at this
    simp [readAll, indices, this]
  | n :: d, s :: t, p, F, hl, h => by
    have hrec : ∀ i ∈ List.range n, readAll mem d t (p + i * s) = some ((indices d).map (fun idx => F (i :: idx))) := by
      intro i hi
      refine readAll_eq mem d t _ _ (by simpa using hl) (fun idx hidx => ?_)
      rw [← h (i :: idx) (.cons (List.mem_range.mp hi) hidx)]
      simp [elem, add_assoc]
    have hm : (List.range n).mapM (fun i : Nat => readAll mem d t (p + i * s)) =
        some ((List.range n).map (fun i => (indices d).map (fun idx => F (i :: idx)))) := by
      generalize List.range n = l at hrec
      induction l with
      | nil => rfl
      | cons a l ih =>
        rw [List.mapM_cons, hrec a (by simp), ih (fun i hi => hrec i (by simp [hi]))]
        rfl
    unfold readAll
    rw [hm]
    simp [indices, List.map_flatMap, List.flatMap, Function.comp_def]

theorem rowsOf_flatten {A : Type} (n : Nat) : ∀ (rows : List (List A)), (∀ r ∈ rows, r.length = n) →
    rowsOf rows.length n rows.flatten = rows
  | [], _ => rfl
  | r :: l, h => by
    have hr := h r (by simp)
    unfold rowsOf
    rw [List.length_cons, List.range_succ_eq_map, List.map_cons, List.map_map, List.flatten_cons]
    congr 1
    · simp [hr]
    · have ih := rowsOf_flatten n l (fun r hr => h r (by simp [hr]))
      unfold rowsOf at ih
      conv_rhs => rw [← ih]
      refine List.map_congr_left (fun i _ => ?_)
      simp only [Function.comp_apply]
      have e : (i + 1) * n = r.length + i * n := by rw [hr]; ring
      rw [show i.succ = i + 1 from rfl, e, List.drop_append, List.drop_eq_nil_of_le (by omega)]
      simp

theorem put_pick' {A R : Type} (f : A → R) (g : A → Option R) (b : A → Bool) :
    ∀ pts : List A, put (pts.map b) ((pick (pts.map b) pts).map f) (pts.map g) =
      pts.map (fun p => if b p then some (f p) else g p) := by
  intro pts
  induction pts with
  | nil => rfl
  | cons p l ih =>
    by_cases h : b p = true
    · simp [h, pick, put, ih]
    · simp [h, pick, put, ih]

theorem pick_of_map {A B : Type} (f : A → B) : ∀ (m : List Bool) (l : List A), pick m (l.map f) = (pick m l).map f
  | [], l => by simp [pick]
  | true :: m, [] => by simp [pick]
  | false :: m, [] => by simp [pick]
  | true :: m, a :: l => by simp [pick, pick_of_map f m l]
  | false :: m, a :: l => by simp [pick, pick_of_map f m l]

theorem pick_valid {A : Type} (b : A → Bool) : ∀ (l : List A) {a : A}, a ∈ pick (l.map b) l → a ∈ l ∧ b a = true
  | [], a, h => by simp [pick] at h
  | x :: l, a, h => by
    by_cases hx : b x = true
    · simp only [List.map_cons, hx, pick, List.mem_cons] at h
      rcases h with rfl | h
      · exact ⟨by simp, hx⟩
      · exact ⟨by simp [(pick_valid b l h).1], (pick_valid b l h).2⟩
    · simp only [List.map_cons, Bool.eq_false_iff.mpr hx, pick] at h
      exact ⟨by simp [(pick_valid b l h).1], (pick_valid b l h).2⟩

/-! ### Components -/

/-- Sparse coefficients which can be evaluated: ascending finite nodes, at least as many as the order
of the spline, or no time dependence; finite values, one per node. -/
structure GoodSparse (s : Sparse ℝ) : Prop where
  order : orderOf s = 1 ∨ orderOf s = 2
  ne : s.td.entries ≠ []
  nodes : (∃ ts : List ℝ, s.td.times = ts.map .fin ∧ ts.Pairwise (· < ·) ∧ orderOf s ≤ ts.length) ∨
    (s.td.times = [.ninf] ∧ orderOf s = 1)
  size : s.td.times.length < 2 ^ 64
  rows : ∀ e ∈ s.td.entries, ∃ vals : List ℝ, e.2 = vals.map .fin ∧ vals.length = s.td.times.length
  index : ∀ e ∈ s.td.entries, |e.1.2| ≤ e.1.1

/-- Sets for the options: of one kind of sources, no coefficient twice, the largest degree `N`. -/
structure LooseSets (sets : List (Sparse ℝ)) (opt : Options ℝ) (int : Bool) (N : Nat) : Prop where
  some : 1 ≤ sets.length
  limit : sets.length ≤ 16
  good : ∀ s ∈ sets, GoodSparse s
  source : ∀ s ∈ sets, s.isInternal = int
  nodup : (keptIndices opt sets).Nodup
  degree : MaxDegree (keptIndices opt sets) N
  one : 1 ≤ N
  fits : ncoef N < 2 ^ 45

/-- Moreover the sets are of one unit of time, apart from those without time dependence. -/
structure GoodSets (sets : List (Sparse ℝ)) (opt : Options ℝ) (int : Bool) (N : Nat) : Prop
    extends LooseSets sets opt int N where
  unit : (∀ s ∈ sets, s.decimalYear = true ∨ s.td.times = [.ninf]) ∨ ∀ s ∈ sets, s.decimalYear = false

theorem rawSet_good {s : Sparse ℝ} (h : GoodSparse s) (lo hi : Int) : GoodRaw (s.rawSet lo hi) := by
  have hk := C11_kept s.td.entries h.ne lo hi
  refine ⟨h.order, h.nodes, h.size, ?_, ?_, ?_⟩
  · simp [Sparse.rawSet]
  · intro row hr
    simp only [Sparse.rawSet, hk] at hr
    obtain ⟨e, he, rfl⟩ := List.mem_map.mp hr
    exact h.rows e (List.mem_filter.mp he).1
  · intro e he
    simp only [Sparse.rawSet, hk] at he
    obtain ⟨e', he', rfl⟩ := List.mem_map.mp he
    exact h.index e' (List.mem_filter.mp he').1

theorem rawSet_cm {s : Sparse ℝ} (h : GoodSparse s) (opt : Options ℝ) :
    (s.rawSet opt.minDegree opt.maxDegree).cm = (s.td.entries.map Prod.fst).filter (Kept opt) := by
  unfold Sparse.rawSet
  simp only [C11_kept s.td.entries h.ne, List.filter_map]
  rfl

theorem raws_cm {sets : List (Sparse ℝ)} (h : ∀ s ∈ sets, GoodSparse s) (opt : Options ℝ) :
    (sets.map (Sparse.rawSet opt.minDegree opt.maxDegree)).flatMap (fun r => r.cm) = keptIndices opt sets := by
  rw [List.flatMap_map]
  exact List.flatMap_congr (fun s hs => rawSet_cm (h s hs) opt)

/-- The unit of the times of a component. -/
theorem GoodSets.converts {c : Component ℝ} {opt : Options ℝ} {int : Bool} {N : Nat}
    (h : GoodSets c.items opt int N) : ∀ s ∈ c.items, s.decimalYear = c.converts ∨ s.td.times = [.ninf] := by
  intro s hs
  unfold Component.converts
  rcases h.unit with hu | hu
  · rcases hu s hs with h1 | h1
    · exact .inl (by rw [h1, List.any_eq_true.mpr ⟨s, hs, h1⟩])
    · exact .inr h1
  · left
    rw [hu s hs]
    symm
    rw [List.any_eq_false]
    intro x hx
    simp [hu x hx]

theorem LooseSets.internal {c : Component ℝ} {opt : Options ℝ} {int : Bool} {N : Nat}
    (h : LooseSets c.items opt int N) : c.isInternal = int := by
  unfold Component.isInternal
  match hi : c.items, h.some with
  | s :: _, _ => exact h.source s (by rw [hi]; simp)

/-- The time all sets of a component are interpolated at. -/
noncomputable def commonTime (c : Component ℝ) (t : ℝ) : ℝ :=
  if c.converts then Time.mjd2kToDecimalYear t else t

theorem seriesAt_ninf (row : List (X ℝ)) (a b : ℝ) (order : Int) :
    SeriesAt [.ninf] row a order = SeriesAt [.ninf] row b order := by
  have key : ∀ a b v, SeriesAt [.ninf] row a order v → SeriesAt [.ninf] row b order v := by
    intro a b v h
    cases h with
    | @nodes ts vals ht hv h =>
      match ts, ht with
      | [], ht => simp at ht
      | _ :: _, ht => simp at ht
    | always ht hv ho => exact .always ht hv ho
  exact funext fun v => propext ⟨key a b v, key b a v⟩

theorem entries_eq {c : Component ℝ} {opt : Options ℝ} {int : Bool} {N : Nat} (h : GoodSets c.items opt int N) (t : ℝ) :
    splineEntries (c.items.map (Sparse.rawSet opt.minDegree opt.maxDegree)) (commonTime c t) =
      entriesAt opt c.items t := by
  unfold splineEntries entriesAt
  rw [List.flatMap_map]
  refine List.flatMap_congr (fun s hs => ?_)
  have hk := C11_kept s.td.entries (h.good s hs).ne opt.minDegree opt.maxDegree
  have hser : ∀ row, SeriesAt s.td.times row (commonTime c t) (orderOf s) =
      SeriesAt s.td.times row (ownTime s t) (orderOf s) := by
    intro row
    rcases h.converts s hs with he | he
    · unfold commonTime ownTime
      rw [he]
    · rw [he]
      exact seriesAt_ninf _ _ _ _
  have hz : ∀ l : List ((Int × Int) × List (X ℝ)), (l.map Prod.fst).zip (l.map Prod.snd) = l := by
    intro l
    rw [List.zip_map']
    simp
  simp only [Sparse.rawSet, hk, hz]
  have : List.filter (fun e : (Int × Int) × List (X ℝ) => decide ((opt.minDegree < 0 ∨ opt.minDegree ≤ e.1.1) ∧
      (opt.maxDegree < 0 ∨ e.1.1 ≤ opt.maxDegree))) s.td.entries = s.td.entries.filter (fun e => Kept opt e.1) := rfl
  rw [this]
  exact List.map_congr_left (fun e _ => congrArg (Prod.mk e.1) (hser e.2))

/-- The opposite scale. -/
def opposite (g : V3 ℝ) : V3 ℝ := ⟨-g.x, -g.y, -g.z⟩

theorem negScale_of {sc : Scale ℝ} {g : V3 ℝ} (h : ScaleOf sc g) : ScaleOf (negScale sc) (opposite g) := by
  rcases h with ⟨rfl, rfl⟩ | ⟨s, rfl, rfl⟩ | ⟨x, y, z, rfl, rfl⟩
  · exact .inr (.inl ⟨-1, rfl, rfl⟩)
  · exact .inr (.inl ⟨-s, rfl, rfl⟩)
  · exact .inr (.inr ⟨-x, -y, -z, rfl, rfl⟩)

/-- The single evaluation with the coefficients at the time. -/
def IsVal (alloc : Nat → Mem ℝ) (sets : List (Sparse ℝ)) (opt : Options ℝ) (int : Bool) (N : Nat) (g : V3 ℝ) (i o : CT)
    (t : ℝ) (x v : V3 ℝ) : Prop :=
  ∃ rows u, TableOf N (entriesAt opt sets t) rows ∧
    shevalR int N i o 2 1 (opposite g) (alloc N) [(x, rows)] = some [u] ∧ u.2 = some v

theorem isVal_unique {alloc : Nat → Mem ℝ} {c : Component ℝ} {opt : Options ℝ} {int : Bool} {N : Nat}
    (h : GoodSets c.items opt int N) {g : V3 ℝ} {i o : CT} {t : ℝ} {x v w : V3 ℝ}
    (hv : IsVal alloc c.items opt int N g i o t x v) (hw : IsVal alloc c.items opt int N g i o t x w) : v = w := by
  obtain ⟨r1, u1, a1, a2, a3⟩ := hv
  obtain ⟨r2, u2, b1, b2, b3⟩ := hw
  obtain ⟨r, -, hu⟩ := C66_table_exists _ (fun r hr => by
      obtain ⟨s, hs, rfl⟩ := List.mem_map.mp hr
      exact rawSet_good (h.good s hs) opt.minDegree opt.maxDegree) (by rw [raws_cm h.good]; exact h.nodup) N
    (by rw [raws_cm h.good]; exact h.degree) (commonTime c t)
  rw [entries_eq h] at hu
  rw [hu r1 a1] at a2
  rw [hu r2 b1, a2] at b2
  simp only [Option.some.injEq, List.cons.injEq, and_true] at b2
  rw [b2, b3] at a3
  exact (Option.some.inj a3).symm

/-- What the C code is given besides the arguments. -/
noncomputable def realEnv (alloc : Nat → Mem ℝ) (junk : Nat → List ℝ) (junkX : Nat → List (X ℝ)) (year : Int) :
    Field.Env ℝ (FullEval.State ℝ) :=
  ⟨fun c m s v rows => modelEvalR c m s v rows, fun N => init (alloc N), junk, junkX, year⟩

/-- One component on arrays, whatever the units of time of its sets. -/
theorem evalComponent_loose (alloc : Nat → Mem ℝ) (ha : ∀ N, MemOk (alloc N) N) (junk : Nat → List ℝ)
    (hj : ∀ n, (junk n).length = n) (junkX : Nat → List (X ℝ)) (hjX : ∀ n, (junkX n).length = n) (year : Int)
    (c : Component ℝ) (opt : Options ℝ) (int : Bool) (N : Nat) (hc : LooseSets c.items opt int N)
    (time : NdArray (X ℝ)) (loc : NdArray ℝ) (lt lead : List Nat) (T : List Nat → X ℝ) (τ : List Nat → ℝ)
    (P : List Nat → V3 ℝ) (ht : ItemsOf time lt T) (hT : ∀ idx, Index lt idx → T idx = .fin (τ idx))
    (hl : lt.length ≤ 15) (hx : VectorsOf loc lead P)
    (h1 : loc.arr.stride.getLast? = some 1) (hp : lt <+: lead) (i o : CT) (g : V3 ℝ) (hg : ScaleOf opt.scale g) :
    ∃ r, evalComponent (realEnv alloc junk junkX year) c time loc (code i) (code o) opt = .ok r ∧
      r.length = (lead ++ [3]).prod ∧
      ∀ idx, Index lead idx → ∃ rows u v,
        TableOf N (splineEntries (c.items.map (Sparse.rawSet opt.minDegree opt.maxDegree))
          (commonTime c (τ (idx.take lt.length)))) rows ∧
        shevalR int N i o 2 1 (opposite g) (alloc N) [(P idx, rows)] = some [u] ∧ u.2 = some v ∧
        ∀ k : Fin 3, r[rank (lead ++ [3]) (idx ++ [k.val])]? = some (comp v k) := by
  obtain ⟨time', e1, e2⟩ : ∃ time', convertTimes (realEnv alloc junk junkX year) c time = .ok time' ∧
      ItemsOf time' lt (fun idx => if c.converts then Time.mjd2kToDecimalYearX year (T idx) else T idx) := by
    unfold convertTimes realEnv
    cases hcv : c.converts with
    | true =>
      obtain ⟨out, h1, h2⟩ := timeArr_items (Time.mjd2kToDecimalYearX year) junkX hjX time lt T ht hl
      exact ⟨out, h1, by simpa using h2⟩
    | false => exact ⟨time, rfl, by simpa using ht⟩
  have e3 : ItemsOf (⟨finMem time'.mem, time'.arr⟩ : NdArray ℝ) lt (fun idx => commonTime c (τ idx)) := by
    refine ⟨e2.dim, e2.ndim, fun idx hi => ?_⟩
    have := e2.get idx hi
    rw [hT idx hi] at this
    unfold elem at this ⊢
    simp only [finMem, this, commonTime]
    cases c.converts <;> rfl
  have hgood : ∀ r ∈ c.items.map (Sparse.rawSet opt.minDegree opt.maxDegree), GoodRaw r := by
    intro r hr
    obtain ⟨s, hs, rfl⟩ := List.mem_map.mp hr
    exact rawSet_good (hc.good s hs) _ _
  obtain ⟨r, f1, f2, -, f4, -, f6, f7⟩ := C66_shevaltemp_partial alloc ha junk hj _ loc lt lead lead N _ P
    (c.items.map (Sparse.rawSet opt.minDegree opt.maxDegree)) hgood (by simpa using hc.some) (by simpa using hc.limit)
    (by rw [raws_cm hc.good]; exact hc.nodup) (by rw [raws_cm hc.good]; exact hc.degree) hc.one hc.fits e3 hx h1
    ⟨List.prefix_rfl, hp, .inl rfl⟩ i o 2 (.inr (.inl rfl)) int 1 (negScale opt.scale) (opposite g) (negScale_of hg)
  obtain ⟨p, hpp⟩ : ∃ p, r.grd = some p := Option.isSome_iff_exists.mp (f6.mpr (.inl rfl))
  refine ⟨p, ?_, f4 p hpp, ?_⟩
  · unfold evalComponent
    rw [e1]
    simp only [bind, Except.bind, realEnv]
    rw [hc.internal]
    have : ((2 : Nat) : Int) = 2 := rfl
    rw [this] at f1
    rw [f1]
    simp only [hpp]
    rfl
  · intro idx hi
    obtain ⟨rows, hrows, -⟩ := C66_table_exists _ hgood (by rw [raws_cm hc.good]; exact hc.nodup) N
      (by rw [raws_cm hc.good]; exact hc.degree) (commonTime c (τ (idx.take lt.length)))
    obtain ⟨u, u1, -, u3⟩ := f7 idx hi rows hrows
    rw [hpp] at u3
    simp only [Option.bind_some] at u3
    have hil := index_length hi
    rw [← hil, List.take_length] at u1
    cases hu : u.2 with
    | none =>
      exfalso
      have h0 := u3 0
      rw [hu] at h0
      simp only [Option.map_none] at h0
      have : rank (lead ++ [3]) (idx ++ [(0 : Fin 3).val]) < p.length := by
        rw [f4 p hpp]
        have hidx : Index (lead ++ [3]) (idx ++ [(0 : Fin 3).val]) := List.rel_append hi (.cons (by simp) .nil)
        have := indices_rank hidx
        have hlt := (List.getElem?_eq_some_iff.mp this).1
        rwa [indices_length] at hlt
      rw [List.getElem?_eq_getElem this] at h0
      cases h0
    | some v =>
      refine ⟨rows, u, v, hrows, u1, hu, fun k => ?_⟩
      rw [u3 k, hu]
      rfl

/-- One component on arrays. -/
theorem evalComponent_ok (alloc : Nat → Mem ℝ) (ha : ∀ N, MemOk (alloc N) N) (junk : Nat → List ℝ)
    (hj : ∀ n, (junk n).length = n) (junkX : Nat → List (X ℝ)) (hjX : ∀ n, (junkX n).length = n) (year : Int)
    (c : Component ℝ) (opt : Options ℝ) (int : Bool) (N : Nat) (hc : GoodSets c.items opt int N)
    (time : NdArray (X ℝ)) (loc : NdArray ℝ) (lt lead : List Nat) (T : List Nat → X ℝ) (τ : List Nat → ℝ)
    (P : List Nat → V3 ℝ) (ht : ItemsOf time lt T) (hT : ∀ idx, Index lt idx → T idx = .fin (τ idx))
    (hl : lt.length ≤ 15) (hx : VectorsOf loc lead P)
    (h1 : loc.arr.stride.getLast? = some 1) (hp : lt <+: lead) (i o : CT) (g : V3 ℝ) (hg : ScaleOf opt.scale g) :
    ∃ r, evalComponent (realEnv alloc junk junkX year) c time loc (code i) (code o) opt = .ok r ∧
      r.length = (lead ++ [3]).prod ∧
      ∀ idx, Index lead idx → ∃ v, IsVal alloc c.items opt int N g i o (τ (idx.take lt.length)) (P idx) v ∧
        ∀ k : Fin 3, r[rank (lead ++ [3]) (idx ++ [k.val])]? = some (comp v k) := by
  obtain ⟨r, h1, h2, h3⟩ := evalComponent_loose alloc ha junk hj junkX hjX year c opt int N hc.toLooseSets time loc
    lt lead T τ P ht hT hl hx h1 hp i o g hg
  refine ⟨r, h1, h2, fun idx hi => ?_⟩
  obtain ⟨rows, u, v, a1, a2, a3, a4⟩ := h3 idx hi
  rw [entries_eq hc] at a1
  exact ⟨v, ⟨rows, u, a1, a2, a3⟩, a4⟩

/-! ### Models -/

theorem mem_pick {A : Type} (b : A → Bool) : ∀ (l : List A) {a : A}, a ∈ l → b a = true → a ∈ pick (l.map b) l
  | [], a, h, _ => by simp at h
  | x :: l, a, h, ha => by
    rcases List.mem_cons.mp h with rfl | h
    · simp [pick, ha]
    · cases hx : b x
      · simpa [pick, hx] using mem_pick b l h ha
      · simpa [pick, hx] using .inr (mem_pick b l h ha)

/-- The coordinates as a row. -/
def xyz (v : V3 ℝ) : List ℝ := [v.x, v.y, v.z]

theorem xyz_get (v : V3 ℝ) (k : Fin 3) : (xyz v)[k.val]? = some (comp v k) := by
  fin_cases k <;> rfl

theorem reshape_items {time : NdArray (X ℝ)} {la : ArrD} {lt lead : List Nat} {T : List Nat → X ℝ} {c : Nat}
    (ht : ItemsOf time lt T) (hc : la.dim = lead ++ [c]) (hp : lt <+: lead) :
    ∃ ta, Shapes.reshapeTimesAndCoordinates time.arr la = .ok (ta, la) ∧
      ItemsOf ⟨time.mem, ta⟩ (if lt = [] then [] else lead) (fun idx => T (idx.take lt.length)) := by
  obtain ⟨ta, h1, h2, h3⟩ := C51_times_partial time.mem time.arr la lead c hc ht.ndim (by rw [ht.dim]; exact hp)
  rw [ht.dim] at h2 h3
  refine ⟨ta, h1, h2, ?_, ?_⟩
  · have hlen := hp.length_le
    have hcl : la.dim.length - 1 = lead.length := by rw [hc]; simp
    have hn := ht.ndim
    rw [ht.dim] at hn
    unfold Shapes.reshapeTimesAndCoordinates at h1
    split at h1
    · rename_i he
      rw [hc] at he
      simp at he
    · simp only [hcl, ht.dim, Nat.max_eq_right hlen, Nat.min_eq_left hlen] at h1
      split at h1
      · cases h1
      · split at h1
        · cases h1
        · split at h1
          · cases h1
            simp [hn, hc]
            omega
          · cases h1
            exact ht.ndim
  · intro idx hi
    have := h3 idx
    unfold itemOf at this
    simp only
    rw [this]
    refine ht.get _ ?_
    split at hi
    · rename_i he
      subst he
      have : idx = [] := by
        cases hi
        rfl
      subst this
      exact List.Forall₂.nil
    · exact index_take hp hi

theorem reads_points {loc : NdArray ℝ} {lead : List Nat} {P : List Nat → V3 ℝ} (hx : VectorsOf loc lead P) :
    readAll loc.mem loc.arr.dim loc.arr.stride loc.arr.data = some ((indices lead).map (fun idx => xyz (P idx))).flatten := by
  have h := readAll_eq loc.mem (lead ++ [3]) loc.arr.stride loc.arr.data
    (fun j => ((xyz (P (j.take lead.length)))[j.getD lead.length 0]?).getD 0) (by rw [hx.ndim, hx.dim]) (by
      intro idx hidx
      obtain ⟨a, b, hab⟩ : ∃ a b, idx = a ++ [b] := by
        have := index_length hidx
        simp only [List.length_append, List.length_singleton] at this
        have hne : idx ≠ [] := by
          intro he
          rw [he] at this
          simp at this
        exact ⟨idx.dropLast, idx.getLast hne, (List.dropLast_append_getLast hne).symm⟩
      subst hab
      have hl : a.length = lead.length := by
        have := index_length hidx
        simpa using this
      have ha : Index lead a := by
        have := index_take (List.prefix_append lead [3]) hidx
        rwa [← hl, List.take_left] at this
      have hb : b < 3 := by
        have := List.forall₂_drop lead.length hidx
        rw [← hl] at this
        simp only [List.drop_left] at this
        rw [hl] at this
        simp only [List.drop_left] at this
        cases this with
        | cons h _ => exact h
      obtain ⟨g0, g1, g2⟩ := hx.get a ha
      have e1 : List.take lead.length (a ++ [b]) = a := by rw [← hl, List.take_left]
      have e2 : (a ++ [b]).getD lead.length 0 = b := by rw [← hl]; simp
      rw [e1, e2]
      match b, hb with
      | 0, _ => exact g0
      | 1, _ => exact g1
      | 2, _ => exact g2)
  rw [hx.dim, h, indices_append]
  simp only [Option.some.injEq, List.map_flatMap, List.map_map, Function.comp_def]
  rw [List.flatMap_def]
  congr 1
  refine List.map_congr_left (fun idx hi => ?_)
  have hl := index_length (mem_indices.mp hi)
  simp [indices, List.range_succ, ← hl, xyz]

/-- The new arrays of the points picked. -/
theorem picked_items {A : Type} (q : List (List Nat)) (F : List Nat → A) :
    ItemsOf (newArray [q.length] (q.map F)) [q.length] (fun idx => F (q.getD (idx.headD 0) [])) := by
  have h := items_new (dims := [q.length]) (fun idx => F (q.getD (idx.headD 0) []))
  have e : (indices [q.length]).map (fun idx => F (q.getD (idx.headD 0) [])) = q.map F := by
    have e0 : indices [q.length] = (List.range q.length).map (fun i => [i]) := by
      simp only [indices, List.map_cons, List.map_nil]
      induction List.range q.length with
      | nil => rfl
      | cons a l ih => simp [List.flatMap_cons, ih]
    rw [e0, List.map_map]
    refine List.ext_getElem? (fun n => ?_)
    by_cases hn : n < q.length
    · simp [hn]
    · simp [hn]
  rwa [e] at h

theorem picked_vectors (q : List (List Nat)) (P : List Nat → V3 ℝ) :
    VectorsOf (newArray [q.length, 3] (q.map (fun idx => xyz (P idx))).flatten) [q.length]
      (fun idx => P (q.getD (idx.headD 0) [])) := by
  refine ⟨rfl, by simp [newArray, contiguous, cstrides_length], ?_⟩
  intro idx hidx
  match idx, hidx with
  | [j], .cons hj .nil =>
    have key : ∀ k (hk : k < 3), elem (rdI (q.map (fun idx => xyz (P idx))).flatten) 0 (cstrides [q.length, 3]) [j, k] =
        (xyz (P (q.getD j [])))[k]? := by
      intro k hk
      have hf := flatten_get 3 (q.map (fun idx => xyz (P idx))) j k (by
        intro b hb
        obtain ⟨x, -, rfl⟩ := List.mem_map.mp hb
        rfl) hk
      simp only [elem, cstrides, List.prod_cons, List.prod_nil, List.zipWith_cons_cons, List.zipWith_nil_left,
        List.sum_cons, List.sum_nil]
      unfold rdI rd
      rw [if_pos (by positivity)]
      have e : (0 + ((j : Int) * ((3 * 1 : Nat) : Int) + ((k : Int) * ((1 : Nat) : Int) + 0))).toNat = j * 3 + k := by
        push_cast
        omega
      rw [e, hf, List.getElem?_map, List.getElem?_eq_getElem hj]
      simp [List.getElem?_eq_getElem hj]
    exact ⟨key 0 (by norm_num), key 1 (by norm_num), key 2 (by norm_num)⟩

theorem rowsOf_eq (q : List (List Nat)) (r : List ℝ) (V : List Nat → V3 ℝ) (hl : r.length = ([q.length] ++ [3]).prod)
    (h : ∀ j (hj : j < q.length), ∀ k : Fin 3, r[rank ([q.length] ++ [3]) ([j] ++ [k.val])]? = some (comp (V q[j]) k)) :
    rowsOf q.length 3 r = q.map (fun idx => xyz (V idx)) := by
  have e : r = (q.map (fun idx => xyz (V idx))).flatten := by
    refine List.ext_getElem? (fun n => ?_)
    have hw : ∀ b ∈ q.map (fun idx => xyz (V idx)), b.length = 3 := by
      intro b hb
      obtain ⟨x, -, rfl⟩ := List.mem_map.mp hb
      rfl
    have hn : n / 3 * 3 + n % 3 = n := by omega
    have hf := flatten_get 3 (q.map (fun idx => xyz (V idx))) (n / 3) (n % 3) hw (by omega)
    rw [hn] at hf
    rw [hf]
    by_cases hlt : n / 3 < q.length
    · have := h (n / 3) hlt ⟨n % 3, by omega⟩
      have e2 : rank ([q.length] ++ [3]) ([n / 3] ++ [n % 3]) = n := by
        simp [rank]
        omega
      rw [e2] at this
      rw [this, List.getElem?_map, List.getElem?_eq_getElem hlt]
      simp only [Option.map_some, Option.bind_some]
      exact (xyz_get _ ⟨n % 3, by omega⟩).symm
    · have h1 : r[n]? = none := by
        rw [List.getElem?_eq_none_iff, hl]
        simp
        omega
      have h2 : q[n / 3]? = none := List.getElem?_eq_none_iff.mpr (by omega)
      rw [h1, List.getElem?_map, h2]
      rfl
  conv_lhs => rw [e]
  have := rowsOf_flatten 3 (q.map (fun idx => xyz (V idx))) (by
    intro b hb
    obtain ⟨x, -, rfl⟩ := List.mem_map.mp hb
    rfl)
  rwa [List.length_map] at this

/-- `ev` evaluates the components `c` with `Good c N` point by point to values determined by `Val`, on the arrays
of locations allowed by `Loc`. -/
structure Evaluator (ev : Component ℝ → NdArray (X ℝ) → NdArray ℝ → Except Err (List ℝ)) (Good : Component ℝ → Nat → Prop)
    (Val : Component ℝ → Nat → ℝ → V3 ℝ → V3 ℝ → Prop) (Loc : NdArray ℝ → List Nat → Prop) : Prop where
  unique : ∀ {c N t x v w}, Good c N → Val c N t x v → Val c N t x w → v = w
  fresh : ∀ n data, Loc (newArray [n, 3] data) [n]
  ok : ∀ (c : Component ℝ) (N : Nat), Good c N → ∀ (time : NdArray (X ℝ)) (loc : NdArray ℝ) (lt lead : List Nat)
    (T : List Nat → X ℝ) (τ : List Nat → ℝ) (P : List Nat → V3 ℝ), ItemsOf time lt T →
    (∀ idx, Index lt idx → T idx = .fin (τ idx)) → lt.length ≤ 15 → VectorsOf loc lead P → Loc loc lead → lt <+: lead →
    ∃ r, ev c time loc = .ok r ∧ r.length = (lead ++ [3]).prod ∧
      ∀ idx, Index lead idx → ∃ v, Val c N (τ (idx.take lt.length)) (P idx) v ∧
        ∀ k : Fin 3, r[rank (lead ++ [3]) (idx ++ [k.val])]? = some (comp v k)

section
variable {ev : Component ℝ → NdArray (X ℝ) → NdArray ℝ → Except Err (List ℝ)} {Good : Component ℝ → Nat → Prop}
    {Val : Component ℝ → Nat → ℝ → V3 ℝ → V3 ℝ → Prop} {Loc : NdArray ℝ → List Nat → Prop}

/-- One component on the points picked. -/
theorem picked_ok (H : Evaluator ev Good Val Loc) (c : Component ℝ) (N : Nat) (hc : Good c N)
    (q : List (List Nat)) (T : List Nat → X ℝ) (P : List Nat → V3 ℝ) (hT : ∀ idx ∈ q, ∃ t, T idx = .fin t) :
    ∃ (r : List ℝ) (V : List Nat → V3 ℝ), ev c (newArray [q.length] (q.map T))
        (newArray [q.length, 3] (q.map (fun idx => xyz (P idx))).flatten) = .ok r ∧
      rowsOf q.length 3 r = q.map (fun idx => xyz (V idx)) ∧
      ∀ idx ∈ q, ∃ t, T idx = .fin t ∧ Val c N t (P idx) (V idx) := by
  classical
  let τ : List Nat → ℝ := fun idx => match T idx with | .fin t => t | _ => 0
  have hτ : ∀ idx ∈ q, T idx = .fin (τ idx) := by
    intro idx hi
    obtain ⟨t, ht⟩ := hT idx hi
    simp only [τ, ht]
  have hget : ∀ j (hj : j < q.length), q.getD (([j] : List Nat).headD 0) [] = q[j] := by
    intro j hj
    simp [hj]
  obtain ⟨r, h1, h2, h3⟩ := H.ok c N hc _ _ [q.length] [q.length] _
    (fun idx => τ (q.getD (idx.headD 0) [])) _ (picked_items q T) (by
      intro idx hidx
      match idx, hidx with
      | [j], .cons hjl .nil =>
        simp only [hget j hjl]
        exact hτ _ (List.getElem_mem hjl)) (by simp) (picked_vectors q P) (H.fresh _ _)
    List.prefix_rfl
  have h4 : ∀ j (hjl : j < q.length), ∃ v, Val c N (τ q[j]) (P q[j]) v ∧
      ∀ k : Fin 3, r[rank ([q.length] ++ [3]) ([j] ++ [k.val])]? = some (comp v k) := by
    intro j hjl
    obtain ⟨v, a, b⟩ := h3 [j] (.cons hjl .nil)
    simp only [List.length_singleton, List.take_succ_cons, List.take_zero, hget j hjl] at a
    exact ⟨v, a, b⟩
  let V : List Nat → V3 ℝ := fun idx =>
    if h : ∃ v, Val c N (τ idx) (P idx) v then h.choose else ⟨0, 0, 0⟩
  have hV : ∀ idx ∈ q, Val c N (τ idx) (P idx) (V idx) := by
    intro idx hi
    obtain ⟨j, hjl, rfl⟩ := List.getElem_of_mem hi
    obtain ⟨v, a, -⟩ := h4 j hjl
    have he : ∃ v, Val c N (τ q[j]) (P q[j]) v := ⟨v, a⟩
    simp only [V, dif_pos he]
    exact he.choose_spec
  refine ⟨r, V, h1, rowsOf_eq q r V h2 ?_, fun idx hi => ⟨τ idx, hτ idx hi, hV idx hi⟩⟩
  intro j hjl k
  obtain ⟨v, a, b⟩ := h4 j hjl
  rw [b k, H.unique hc a (hV _ (List.getElem_mem hjl))]

/-- The value of a model at an index: none, or one of the component chosen. -/
def Chosen (Good : Component ℝ → Nat → Prop) (Val : Component ℝ → Nat → ℝ → V3 ℝ → V3 ℝ → Prop)
    (parts : List (Component ℝ)) (T : List Nat → X ℝ) (P : List Nat → V3 ℝ) (idx : List Nat)
    (res : Option (List ℝ)) : Prop :=
  (res = none ∧ ∀ c ∈ parts, c.isValid (T idx) = false) ∨
    ∃ pre c post N t v, parts = pre ++ c :: post ∧ c.isValid (T idx) = true ∧ (∀ d ∈ post, d.isValid (T idx) = false) ∧
      Good c N ∧ T idx = .fin t ∧ Val c N t (P idx) v ∧ res = some (xyz v)

theorem fold_ok (H : Evaluator ev Good Val Loc) (pts : List (List Nat)) (T : List Nat → X ℝ) (P : List Nat → V3 ℝ) :
    ∀ (more done : List (Component ℝ)) (G : List Nat → Option (List ℝ)),
      (∀ c ∈ more, ∃ N, Good c N) →
      (∀ idx ∈ pts, ∀ c ∈ more, c.isValid (T idx) = true → ∃ t, T idx = .fin t) →
      (∀ idx ∈ pts, Chosen Good Val done T P idx (G idx)) →
      ∃ G', more.foldlM (fun result c => do
          let mask := (pts.map T).map c.isValid
          let tk := pick mask (pts.map T)
          let xk := pick mask (pts.map (fun idx => xyz (P idx)))
          let g ← called (ev c (newArray [tk.length] tk) (newArray [tk.length, 3] xk.flatten))
          return put mask (rowsOf tk.length 3 g) result) (pts.map G) = .ok (pts.map G') ∧
        ∀ idx ∈ pts, Chosen Good Val (done ++ more) T P idx (G' idx) := by
  intro more
  induction more with
  | nil =>
    intro done G _ _ hG
    exact ⟨G, rfl, by simpa using hG⟩
  | cons c more ih =>
    intro done G hc hT hG
    obtain ⟨N, hN⟩ := hc c (by simp)
    obtain ⟨r, V, h1, h2, h3⟩ := picked_ok H c N hN
      (pick (pts.map (fun idx => c.isValid (T idx))) pts) T P (by
        intro idx hi
        have := pick_valid _ _ hi
        exact hT idx this.1 c (by simp) this.2)
    obtain ⟨G', h4, h5⟩ := ih (done ++ [c]) (fun idx => if c.isValid (T idx) then some (xyz (V idx)) else G idx)
      (fun d hd => hc d (by simp [hd])) (fun idx hi d hd => hT idx hi d (by simp [hd])) (by
        intro idx hi
        by_cases hv : c.isValid (T idx) = true
        · right
          obtain ⟨t, h6, h7⟩ := h3 idx (mem_pick (fun idx => c.isValid (T idx)) pts hi hv)
          exact ⟨done, c, [], N, t, V idx, rfl, hv, by simp, hN, h6, h7, by simp [hv]⟩
        · have hv : c.isValid (T idx) = false := by simpa using hv
          rcases hG idx hi with ⟨a, b⟩ | ⟨pre, d, post, M, t, v, a1, a2, a3, a4⟩
          · left
            refine ⟨by simp [hv, a], ?_⟩
            intro d hd
            rcases List.mem_append.mp hd with hd | hd
            · exact b d hd
            · rw [List.mem_singleton.mp hd]; exact hv
          · right
            refine ⟨pre, d, post ++ [c], M, t, v, by simp [a1], a2, ?_, a4.1, a4.2.1, a4.2.2.1, by simp [hv, a4.2.2.2]⟩
            intro e he
            rcases List.mem_append.mp he with he | he
            · exact a3 e he
            · rw [List.mem_singleton.mp he]; exact hv)
    refine ⟨G', ?_, by simpa using h5⟩
    rw [List.foldlM_cons]
    refine Eq.trans (congrArg (fun e => e >>= _) (?_ : _ = Except.ok (pts.map
      (fun idx => if c.isValid (T idx) then some (xyz (V idx)) else G idx)))) h4
    have e1 : (pts.map T).map c.isValid = pts.map (fun idx => c.isValid (T idx)) := by simp
    simp only [e1, pick_of_map, List.length_map]
    rw [h1]
    show Except.ok _ = _
    rw [h2, put_pick' (fun idx => xyz (V idx)) G]
end

/-- The component whose values a model gives at a time: the first valid one for a single time, the
last valid one for arrays of times. -/
def Winner (parts : List (Component ℝ)) (scalar : Prop) (t : X ℝ) (c : Component ℝ) : Prop :=
  ∃ pre post, parts = pre ++ c :: post ∧ c.isValid t = true ∧
    ((scalar ∧ ∀ d ∈ pre, d.isValid t = false) ∨ (¬ scalar ∧ ∀ d ∈ post, d.isValid t = false))

/-- `v` is the field of the sets at the time and the position, multiplied by the scale: minus the
gradient of the potential of the table with the coefficients at the time, in the coordinates of
the output. -/
def IsField (sets : List (Sparse ℝ)) (opt : Options ℝ) (int : Bool) (N : Nat) (g : V3 ℝ) (i o : CT) (t : ℝ) (x v : V3 ℝ) : Prop :=
  ∃ rows, TableOf N (entriesAt opt sets t) rows ∧ ∃ s r w : V3 ℝ,
    convert libm x (code i) 1 = some s ∧ convert libm x (code i) (code o) = some r ∧
    v = ⟨-(w.x * g.x), -(w.y * g.y), -(w.z * g.z)⟩ ∧ IsGradient (potentialAt int N rows) s (toCart o r w)

theorem isVal_field {alloc : Nat → Mem ℝ} (ha : ∀ N, MemOk (alloc N) N) {c : Component ℝ} {opt : Options ℝ}
    {int : Bool} {N : Nat} (hc : GoodSets c.items opt int N) {g : V3 ℝ} {i o : CT} {t : ℝ} {x v : V3 ℝ}
    (hv : IsVal alloc c.items opt int N g i o t x v) (hx : Pos i x)
    (hpole : ∀ s, convert libm x (code i) 1 = some s → 1 / 10 ^ 10 ≤ |Real.cos (s.x * (Real.pi / 180))|) :
    IsField c.items opt int N g i o t x v := by
  obtain ⟨rows, u, h1, h2, h3⟩ := hv
  have hlen : CoefOk rows N := by
    have := h1.len
    have h4 := ncoef_two N
    unfold CoefOk
    rw [this]
    unfold ncoef at h4
    omega
  obtain ⟨os, e1, e2⟩ := C24_sheval_partial int N hc.one i o 2 (.inl rfl) 1 (opposite g) (alloc N) (ha N) [(x, rows)]
    (by simpa using ⟨hx, hlen⟩) (by simpa using hpole)
  rw [h2] at e1
  cases e1
  cases e2 with
  | cons h _ =>
    obtain ⟨s, r, w, a1, a2, a3, a4⟩ := h
    refine ⟨rows, h1, s, r, w, a1, a2, ?_, a4⟩
    rw [h3] at a3
    simpa [opposite, mul_neg] using Option.some.inj a3

theorem flatRows_get {A : Type} (l : List (List Nat)) (G : List Nat → Option (List A))
    (hG : ∀ idx ∈ l, ∀ r, G idx = some r → r.length = 3) (j k : Nat) (hk : k < 3) :
    (flatRows 3 (l.map G))[j * 3 + k]? = (l[j]?).bind (fun idx => match G idx with
      | none => some none
      | some r => (r.map some)[k]?) := by
  have e : flatRows 3 (l.map G) = (l.map (fun idx => match G idx with
      | none => List.replicate 3 none
      | some r => r.map some)).flatten := by
    unfold flatRows
    rw [List.flatMap_def, List.map_map]
    rfl
  rw [e, flatten_get 3 _ j k (by
    intro b hb
    obtain ⟨idx, hi, rfl⟩ := List.mem_map.mp hb
    cases h : G idx with
    | none => simp
    | some r => simpa using hG idx hi r h) hk, List.getElem?_map]
  cases l[j]? with
  | none => rfl
  | some idx =>
    simp only [Option.map_some, Option.bind_some]
    cases G idx with
    | none => rw [List.getElem?_replicate, if_pos hk]
    | some r => rfl

theorem flatRows_length {A : Type} (l : List (List Nat)) (G : List Nat → Option (List A))
    (hG : ∀ idx ∈ l, ∀ r, G idx = some r → r.length = 3) : (flatRows 3 (l.map G)).length = l.length * 3 := by
  induction l with
  | nil => rfl
  | cons a l ih =>
    have h1 := ih (fun idx hi => hG idx (by simp [hi]))
    unfold flatRows at h1 ⊢
    rw [List.map_cons, List.flatMap_cons, List.length_append, h1, List.length_cons]
    cases h : G a with
    | none => simp; omega
    | some r =>
      have := hG a (by simp) r h
      simp [this]
      omega

theorem except_ok_bind {E A B : Type} (a : A) (f : A → Except E B) : (Except.ok a >>= f) = f a := rfl

theorem called_ok {A : Type} (a : A) : called (Except.ok a) = Except.ok a := rfl

theorem rank_lt {lead idx : List Nat} (h : Index lead idx) : rank lead idx < lead.prod := by
  have := indices_rank h
  have h2 := (List.getElem?_eq_some_iff.mp this).1
  rwa [indices_length] at h2

/-- The values of a model on arrays, in terms of the values of single points. -/
theorem evalModelWith_ok {ev : Component ℝ → NdArray (X ℝ) → NdArray ℝ → Except Err (List ℝ)} {Good : Component ℝ → Nat → Prop}
    {Val : Component ℝ → Nat → ℝ → V3 ℝ → V3 ℝ → Prop} {Loc : NdArray ℝ → List Nat → Prop}
    (H : Evaluator ev Good Val Loc) (parts : List (Component ℝ)) (hparts : ∀ c ∈ parts, ∃ N, Good c N)
    (time : NdArray (X ℝ)) (loc : NdArray ℝ) (lt lead : List Nat) (T : List Nat → X ℝ) (P : List Nat → V3 ℝ)
    (ht : ItemsOf time lt T) (hx : VectorsOf loc lead P) (hp : lt <+: lead)
    (hfin : ∀ idx, Index lt idx → ∀ c ∈ parts, c.isValid (T idx) = true → ∃ t, T idx = .fin t)
    (h1 : lt = [] → Loc loc lead) :
    ∃ out, evalModelWith ev parts time loc = .ok (lead ++ [3], out) ∧
      out.length = (lead ++ [3]).prod ∧
      ∀ idx, Index lead idx →
        ((∀ c ∈ parts, c.isValid (T (idx.take lt.length)) = false) ∧
          ∀ k : Fin 3, out[rank (lead ++ [3]) (idx ++ [k.val])]? = some none) ∨
        ∃ c N t v, Winner parts (lt = []) (T (idx.take lt.length)) c ∧ Good c N ∧
          T (idx.take lt.length) = .fin t ∧ Val c N t (P idx) v ∧
          ∀ k : Fin 3, out[rank (lead ++ [3]) (idx ++ [k.val])]? = some (some (comp v k)) := by
  obtain ⟨ta, e1, e2⟩ := reshape_items ht hx.dim hp
  have hdim := e2.dim
  simp only at hdim
  unfold evalModelWith
  rw [e1]
  simp only
  by_cases hlt : lt = []
  · subst hlt
    simp only [if_pos] at e2 hdim
    have hT0 : time.mem ta.data = some (T []) := by
      have := e2.get [] .nil
      simpa [elem] using this
    rw [hdim]
    simp only [hT0, orMemory, called_ok, except_ok_bind]
    cases hf : parts.find? (fun c => c.isValid (T [])) with
    | none =>
      refine ⟨List.replicate loc.arr.dim.prod none, by
        simp only [hx.dim]
        rfl, by simp [hx.dim], fun idx hidx => .inl ?_⟩
      have hn := List.find?_eq_none.mp hf
      refine ⟨fun c hc => by simpa using hn c hc, fun k => ?_⟩
      have hr := rank_lt hidx
      have hk := k.isLt
      rw [hx.dim, List.getElem?_replicate, if_pos (by
        rw [rank_append 3 k.val hidx]
        simp only [List.prod_append, List.prod_cons, List.prod_nil]
        omega)]
    | some c =>
      obtain ⟨hv, pre, post, hpp, hpre⟩ := List.find?_eq_some_iff_append.mp hf
      have hcm : c ∈ parts := by rw [hpp]; simp
      obtain ⟨N, hN⟩ := hparts c hcm
      obtain ⟨t, hT⟩ := hfin [] .nil c hcm hv
      obtain ⟨r, f1, f2, f3⟩ := H.ok c N hN ⟨time.mem, ta⟩ loc [] lead
        _ (fun _ => t) P e2 (by intro idx _; simpa using hT) (by simp) hx (h1 rfl) (by simp)
      refine ⟨r.map some, ?_, by simpa using f2, fun idx hidx => .inr ?_⟩
      · simp only [f1, called_ok, except_ok_bind, hx.dim]
        rfl
      · obtain ⟨v, a1, a2⟩ := f3 idx hidx
        refine ⟨c, N, t, v, ⟨pre, post, hpp, by simpa using hv, .inl ⟨trivial, fun d hd => by simpa using hpre d hd⟩⟩, hN,
          by simpa using hT, a1, fun k => ?_⟩
        rw [List.getElem?_map, a2 k]
        rfl
  · simp only [if_neg hlt] at e2 hdim
    have hld : lead ≠ [] := by
      rintro rfl
      exact hlt (List.prefix_nil.mp hp)
    have hts : readAll time.mem lead ta.stride ta.data = some ((indices lead).map (fun idx => T (idx.take lt.length))) :=
      readAll_eq time.mem lead ta.stride ta.data _ (by rw [e2.ndim, hdim]) e2.get
    have hxs := reads_points hx
    have hrows : rowsOf lead.prod 3 ((indices lead).map (fun idx => xyz (P idx))).flatten =
        (indices lead).map (fun idx => xyz (P idx)) := by
      have := rowsOf_flatten 3 ((indices lead).map (fun idx => xyz (P idx))) (by
        intro b hb
        obtain ⟨x, -, rfl⟩ := List.mem_map.mp hb
        rfl)
      rwa [List.length_map, indices_length] at this
    have hlast : loc.arr.dim.getLastD 0 = 3 := by rw [hx.dim]; simp
    obtain ⟨G, f1, f2⟩ := fold_ok H (indices lead)
      (fun idx => T (idx.take lt.length)) P parts [] (fun _ => none) hparts (by
        intro idx hi c hc hv
        exact hfin _ (index_take hp (mem_indices.mp hi)) c hc hv) (by
        intro idx _
        exact .inl ⟨rfl, by simp⟩)
    have hG : ∀ idx ∈ indices lead, ∀ r, G idx = some r → r.length = 3 := by
      intro idx hi r hr
      rcases f2 idx hi with ⟨a, -⟩ | ⟨_, _, _, _, _, v, _, _, _, _, _, _, a⟩
      · rw [a] at hr
        cases hr
      · rw [a] at hr
        cases hr
        rfl
    refine ⟨flatRows 3 ((indices lead).map G), ?_, ?_, ?_⟩
    · rw [hdim]
      split
      · exact absurd rfl hld
      · simp only [hts, hxs, hlast, orMemory, called_ok, except_ok_bind, hrows]
        rw [show List.replicate lead.prod (none : Option (List ℝ)) = (indices lead).map (fun _ => none) by
          rw [← indices_length, List.map_const']]
        refine Eq.trans (congrArg (fun e => e >>= _) f1) ?_
        rw [hx.dim]
        rfl
    · rw [flatRows_length _ _ hG, indices_length]
      simp
    · intro idx hidx
      have hget : ∀ k : Fin 3, (flatRows 3 ((indices lead).map G))[rank (lead ++ [3]) (idx ++ [k.val])]? =
          (match G idx with | none => some none | some r => (r.map some)[k.val]?) := by
        intro k
        rw [rank_append 3 k.val hidx, flatRows_get _ _ hG _ _ k.isLt, indices_rank hidx]
        simp only [Option.bind_some]
        cases G idx <;> rfl
      rcases f2 idx (mem_indices.mpr hidx) with ⟨a, b⟩ | ⟨pre, c, post, N, t, v, a1, a2, a3, a4, a5, a6, a7⟩
      · left
        refine ⟨by simpa using b, fun k => ?_⟩
        rw [hget k, a]
      · right
        refine ⟨c, N, t, v, ⟨pre, post, by simpa using a1, a2, .inr ⟨hlt, a3⟩⟩, a4, a5, a6, fun k => ?_⟩
        rw [hget k, a7]
        simp only [List.getElem?_map, xyz_get, Option.map_some]

/-- The evaluation of the class of spherical harmonic models. -/
theorem spherical_evaluator (alloc : Nat → Mem ℝ) (ha : ∀ N, MemOk (alloc N) N) (junk : Nat → List ℝ)
    (hj : ∀ n, (junk n).length = n) (junkX : Nat → List (X ℝ)) (hjX : ∀ n, (junkX n).length = n) (year : Int)
    (opt : Options ℝ) (int : Bool) (i o : CT) (g : V3 ℝ) (hg : ScaleOf opt.scale g) :
    Evaluator (fun c time loc => evalComponent (realEnv alloc junk junkX year) c time loc (code i) (code o) opt)
      (fun c N => GoodSets c.items opt int N) (fun c N t x v => IsVal alloc c.items opt int N g i o t x v)
      (fun a _ => a.arr.stride.getLast? = some 1) where
  unique := fun hc hv hw => isVal_unique hc hv hw
  fresh := fun n data => by simp [newArray, contiguous, cstrides]
  ok := fun c N hc time loc lt lead T τ P ht hT hl hx h1 hp =>
    evalComponent_ok alloc ha junk hj junkX hjX year c opt int N hc time loc lt lead T τ P ht hT hl hx h1 hp i o g hg

/-- The values of a model on arrays, in terms of the C code on single points. -/
theorem evalModel_ok (alloc : Nat → Mem ℝ) (ha : ∀ N, MemOk (alloc N) N) (junk : Nat → List ℝ)
    (hj : ∀ n, (junk n).length = n) (junkX : Nat → List (X ℝ)) (hjX : ∀ n, (junkX n).length = n) (year : Int)
    (parts : List (Component ℝ)) (opt : Options ℝ) (int : Bool)
    (hparts : ∀ c ∈ parts, ∃ N, GoodSets c.items opt int N)
    (time : NdArray (X ℝ)) (loc : NdArray ℝ) (lt lead : List Nat) (T : List Nat → X ℝ) (P : List Nat → V3 ℝ)
    (ht : ItemsOf time lt T) (hx : VectorsOf loc lead P) (hp : lt <+: lead)
    (hfin : ∀ idx, Index lt idx → ∀ c ∈ parts, c.isValid (T idx) = true → ∃ t, T idx = .fin t)
    (h1 : lt = [] → loc.arr.stride.getLast? = some 1) (i o : CT) (g : V3 ℝ) (hg : ScaleOf opt.scale g) :
    ∃ out, evalModel (realEnv alloc junk junkX year) parts time loc (code i) (code o) opt = .ok (lead ++ [3], out) ∧
      out.length = (lead ++ [3]).prod ∧
      ∀ idx, Index lead idx →
        ((∀ c ∈ parts, c.isValid (T (idx.take lt.length)) = false) ∧
          ∀ k : Fin 3, out[rank (lead ++ [3]) (idx ++ [k.val])]? = some none) ∨
        ∃ c N t v, Winner parts (lt = []) (T (idx.take lt.length)) c ∧ GoodSets c.items opt int N ∧
          T (idx.take lt.length) = .fin t ∧ IsVal alloc c.items opt int N g i o t (P idx) v ∧
          ∀ k : Fin 3, out[rank (lead ++ [3]) (idx ++ [k.val])]? = some (some (comp v k)) := by
  exact evalModelWith_ok (spherical_evaluator alloc ha junk hj junkX hjX year opt int i o g hg) parts hparts time loc lt
    lead T P ht hx hp hfin h1

theorem winner_unique {parts : List (Component ℝ)} {scalar : Prop} {t : X ℝ} {c d : Component ℝ}
    (hc : Winner parts scalar t c) (hd : Winner parts scalar t d) : c = d := by
  obtain ⟨p1, q1, e1, v1, h1⟩ := hc
  obtain ⟨p2, q2, e2, v2, h2⟩ := hd
  rcases h1 with ⟨s1, h1⟩ | ⟨s1, h1⟩ <;> rcases h2 with ⟨s2, h2⟩ | ⟨s2, h2⟩
  · have a := List.find?_eq_some_iff_append (xs := parts) (p := fun c => c.isValid t) (b := c) |>.mpr
      ⟨v1, p1, q1, e1, fun x hx => by simp [h1 x hx]⟩
    have b := List.find?_eq_some_iff_append (xs := parts) (p := fun c => c.isValid t) (b := d) |>.mpr
      ⟨v2, p2, q2, e2, fun x hx => by simp [h2 x hx]⟩
    rw [a] at b
    exact Option.some.inj b
  · exact absurd s1 s2
  · exact absurd s2 s1
  · have a := List.find?_eq_some_iff_append (xs := parts.reverse) (p := fun c => c.isValid t) (b := c) |>.mpr
      ⟨v1, q1.reverse, p1.reverse, by simp [e1], fun x hx => by simp [h1 x (by simpa using hx)]⟩
    have b := List.find?_eq_some_iff_append (xs := parts.reverse) (p := fun c => c.isValid t) (b := d) |>.mpr
      ⟨v2, q2.reverse, p2.reverse, by simp [e2], fun x hx => by simp [h2 x (by simpa using hx)]⟩
    rw [a] at b
    exact Option.some.inj b

/-- **C74**: a component is used at the times of its closed validity interval. -/
theorem C74_valid (c : Component ℝ) (t : X ℝ) : c.isValid t = true ↔ Within c.vs c.ve t := by
  have key : ∀ x y : X ℝ, X.le x y = true ↔ ∃ a b, extended x = some a ∧ extended y = some b ∧ a ≤ b := by
    intro x y
    cases x <;> cases y <;> simp [X.le, extended]
  unfold Component.isValid Within
  rw [Bool.and_eq_true, key, key]
  constructor
  · rintro ⟨⟨a, b, h1, h2, h3⟩, a', b', h4, h5, h6⟩
    rw [h2] at h4
    cases h4
    exact ⟨a, b', b, h1, h5, h2, h3, h6⟩
  · rintro ⟨a, b, d, h1, h2, h3, h4, h5⟩
    exact ⟨⟨a, d, h1, h3, h4⟩, d, b, h3, h2, h5⟩

theorem valid_false (c : Component ℝ) (t : X ℝ) : c.isValid t = false ↔ ¬ Within c.vs c.ve t := by
  rw [← C74_valid, Bool.not_eq_true]

theorem winner_iff (parts : List (Component ℝ)) (scalar : Prop) (t : X ℝ) (c : Component ℝ) :
    ActiveAt parts scalar t c ↔ Winner parts scalar t c := by
  unfold ActiveAt Winner
  simp only [C74_valid, valid_false]

/-- C74. `eval` of a model on arrays: the shape of the result is the shape of the locations; items of points no
component is valid for are NaN; at any other point they are the field of one valid component: minus the gradient of
the potential whose coefficients are those the degree limits keep, with the values of their own series at the time
(decimal years for the sets in decimal years), multiplied by the scale.

Partial: sets of one unit of time in a component (`C74_mixed_scales` shows what happens otherwise), no coefficient
twice in a component (they are overwritten: `C28_overlap`), exact arithmetic, positions away from the poles and the
centre; for a single time the last dimension of the locations has to be contiguous. -/
theorem C74_eval_partial (alloc : Nat → Mem ℝ) (ha : ∀ N, MemOk (alloc N) N) (junk : Nat → List ℝ)
    (hj : ∀ n, (junk n).length = n) (junkX : Nat → List (X ℝ)) (hjX : ∀ n, (junkX n).length = n) (year : Int)
    (parts : List (Component ℝ)) (opt : Options ℝ) (int : Bool)
    (hparts : ∀ c ∈ parts, ∃ N, GoodSets c.items opt int N)
    (time : NdArray (X ℝ)) (loc : NdArray ℝ) (lt lead : List Nat) (T : List Nat → X ℝ) (P : List Nat → V3 ℝ)
    (ht : ItemsOf time lt T) (hx : VectorsOf loc lead P) (hp : lt <+: lead)
    (hfin : ∀ idx, Index lt idx → ∀ c ∈ parts, Within c.vs c.ve (T idx) → ∃ t, T idx = .fin t)
    (h1 : lt = [] → loc.arr.stride.getLast? = some 1) (i o : CT) (g : V3 ℝ) (hg : ScaleOf opt.scale g) :
    ∃ out, evalModel (realEnv alloc junk junkX year) parts time loc (code i) (code o) opt = .ok (lead ++ [3], out) ∧
      out.length = (lead ++ [3]).prod ∧
      ∀ idx, Index lead idx →
        ((∀ c ∈ parts, ¬ Within c.vs c.ve (T (idx.take lt.length))) →
          ∀ k : Fin 3, out[rank (lead ++ [3]) (idx ++ [k.val])]? = some none) ∧
        ∀ c, ActiveAt parts (lt = []) (T (idx.take lt.length)) c →
          ∃ v : V3 ℝ, (∀ k : Fin 3, out[rank (lead ++ [3]) (idx ++ [k.val])]? = some (some (comp v k))) ∧
            (Pos i (P idx) → (∀ s, convert libm (P idx) (code i) 1 = some s →
                1 / 10 ^ 10 ≤ |Real.cos (s.x * (Real.pi / 180))|) →
              ∃ N t, MaxDegree (keptIndices opt c.items) N ∧ T (idx.take lt.length) = .fin t ∧
                IsField c.items opt int N g i o t (P idx) v) := by
  obtain ⟨out, e1, e2, e3⟩ := evalModel_ok alloc ha junk hj junkX hjX year parts opt int hparts time loc lt lead T P ht hx
    hp (by simpa only [C74_valid] using hfin) h1 i o g hg
  simp only [← valid_false, winner_iff]
  refine ⟨out, e1, e2, fun idx hidx => ?_⟩
  rcases e3 idx hidx with ⟨a, b⟩ | ⟨d, N, t, v, a1, a2, a3, a4, a5⟩
  · refine ⟨fun _ => b, ?_⟩
    rintro c ⟨pre, post, h, hv, -⟩
    rw [a c (by rw [h]; simp)] at hv
    cases hv
  · refine ⟨fun h => ?_, fun c hc => ?_⟩
    · obtain ⟨pre, post, h2, hv, -⟩ := a1
      rw [h d (by rw [h2]; simp)] at hv
      cases hv
    · rw [winner_unique hc a1]
      exact ⟨v, a5, fun hpos hpole => ⟨N, t, a2.degree, a3, isVal_field ha a2 a4 hpos hpole⟩⟩

/-! ### Mixed units of time -/

/-- A set in decimal years. -/
noncomputable def yearsSet : Sparse ℝ :=
  ⟨⟨[.fin 2000, .fin 2005], [((1, 0), [.fin 1, .fin 2])], .c1⟩, true, true⟩

/-- A set in days since 2000: the coefficient is the number of days. -/
noncomputable def daysSet : Sparse ℝ :=
  ⟨⟨[.fin 0, .fin 1000], [((1, 1), [.fin 0, .fin 1000])], .c1⟩, false, true⟩

/-- The two sets combined. -/
noncomputable def mixedSets : Component ℝ := ⟨.fin 0, .fin 1000, [yearsSet, daysSet]⟩

theorem yearsSet_good : GoodSparse yearsSet :=
  ⟨.inr rfl, by simp [yearsSet], .inl ⟨[2000, 2005], rfl, by norm_num, by show (2 : Int) ≤ _; simp⟩, by simp [yearsSet],
    by intro e he; rw [List.mem_singleton.mp he]; exact ⟨[1, 2], rfl, rfl⟩,
    by intro e he; rw [List.mem_singleton.mp he]; norm_num⟩

theorem daysSet_good : GoodSparse daysSet :=
  ⟨.inr rfl, by simp [daysSet], .inl ⟨[0, 1000], rfl, by norm_num, by show (2 : Int) ≤ _; simp⟩, by simp [daysSet],
    by intro e he; rw [List.mem_singleton.mp he]; exact ⟨[0, 1000], rfl, rfl⟩,
    by intro e he; rw [List.mem_singleton.mp he]; norm_num⟩

theorem mixed_loose : LooseSets mixedSets.items ⟨-1, -1, .default⟩ true 1 := by
  have e : keptIndices (⟨-1, -1, .default⟩ : Options ℝ) mixedSets.items = [(1, 0), (1, 1)] := by
    simp [keptIndices, mixedSets, yearsSet, daysSet, Kept]
  refine ⟨by simp [mixedSets], by simp [mixedSets], ?_, ?_, by rw [e]; decide, by rw [e]; exact ⟨by decide, .inr ⟨(1, 0), by simp, rfl⟩⟩,
    le_rfl, by decide⟩
  · intro s hs
    simp only [mixedSets, List.mem_cons, List.not_mem_nil, or_false] at hs
    rcases hs with rfl | rfl
    exacts [yearsSet_good, daysSet_good]
  · intro s hs
    simp only [mixedSets, List.mem_cons, List.not_mem_nil, or_false] at hs
    rcases hs with rfl | rfl <;> rfl

/-- The coefficient of `daysSet` at a time is the time. -/
theorem days_value {a v : ℝ} (h : SeriesAt [.fin 0, .fin 1000] [.fin 0, .fin 1000] a 2 v) : v = a := by
  cases h with
  | @nodes ts vals ht hv h =>
    have h1 : ts = [0, 1000] := by
      match ts, ht with
      | [x, y], ht => simpa using ht.symm
    have h2 : vals = [0, 1000] := by
      match vals, hv with
      | [x, y], ht => simpa using ht.symm
    subst h1 h2
    cases h with
    | @linear j k u w h hu hw =>
      have hj := h.hj
      have hk := h.hk
      have hlt := h.lt
      simp only [List.length_cons, List.length_nil] at hj hk
      rcases (by omega : j = 0 ∨ j = 1) with rfl | rfl <;> rcases (by omega : k = 0 ∨ k = 1) with rfl | rfl
      · simp at hlt
      · simp only [List.getElem?_cons_zero, List.getElem?_cons_succ, Option.some.injEq] at hu hw
        subst hu hw
        simp only [List.getElem_cons_zero, List.getElem_cons_succ, line]
        ring
      · norm_num at hlt
      · simp at hlt
  | always ht hv ho => simp at ht

theorem year_zero : Time.mjd2kToDecimalYear (0 : ℝ) = 2000 := by
  have h : Time.mjd2kToYear (0 : ℝ) = 2000 := by
    unfold Time.mjd2kToYear
    rw [Int.floor_zero]
    decide +kernel
  unfold Time.mjd2kToDecimalYear
  rw [h]
  have : Time.yearStart 2000 = 0 := by decide +kernel
  simp only [this]
  norm_num

/-- **C74** (disagreement): a component of a set in decimal years and of a set in days is evaluated without any
warning, with the decimal year 2000 as the day of the second set: at the day 0 its coefficient, which is the number of
days, is 2000 in the table used instead of 0. -/
theorem C74_mixed_scales (alloc : Nat → Mem ℝ) (ha : ∀ N, MemOk (alloc N) N) (junk : Nat → List ℝ)
    (hj : ∀ n, (junk n).length = n) (junkX : Nat → List (X ℝ)) (hjX : ∀ n, (junkX n).length = n) (year : Int)
    (x : V3 ℝ) (i o : CT) :
    ∃ v rows u, evalModel (realEnv alloc junk junkX year) [mixedSets] (newArray [] [.fin 0])
        (newArray [3] [x.x, x.y, x.z]) (code i) (code o) ⟨-1, -1, .default⟩ =
          .ok ([3], [some v.x, some v.y, some v.z]) ∧
      shevalR true 1 i o 2 1 ⟨-1, -1, -1⟩ (alloc 1) [(x, rows)] = some [u] ∧ u.2 = some v ∧
      cell rows 2 false = 2000 ∧
      ∀ own, TableOf 1 (entriesAt ⟨-1, -1, .default⟩ mixedSets.items 0) own → cell own 2 false = 0 := by
  have ht : ItemsOf (newArray [] [(.fin 0 : X ℝ)]) [] (fun _ => .fin 0) := items_new (dims := []) (fun _ => (.fin 0 : X ℝ))
  have hx : VectorsOf (newArray [3] [x.x, x.y, x.z]) [] (fun _ => x) := by
    refine ⟨rfl, rfl, ?_⟩
    intro idx hidx
    cases hidx
    exact ⟨rfl, rfl, rfl⟩
  obtain ⟨ta, e1, e2⟩ := reshape_items ht hx.dim List.prefix_rfl
  rw [if_pos rfl] at e2
  obtain ⟨r, h1, h2, h3⟩ := evalComponent_loose alloc ha junk hj junkX hjX year mixedSets ⟨-1, -1, .default⟩ true 1
    mixed_loose _ _ [] [] _ (fun _ => 0) _ e2 (fun _ _ => rfl) (by simp) hx rfl List.prefix_rfl i o ⟨1, 1, 1⟩
    (.inl ⟨rfl, rfl⟩)
  obtain ⟨rows, u, v, a1, a2, a3, a4⟩ := h3 [] .nil
  have hr : r = [v.x, v.y, v.z] := by
    have b0 := a4 0
    have b1 := a4 1
    have b2 := a4 2
    match r, h2 with
    | [p, q, s], _ =>
      simp [rank, comp] at b0 b1 b2
      rw [b0, b1, b2]
  refine ⟨v, rows, u, ?_, a2, a3, ?_, ?_⟩
  · subst hr
    unfold evalModel evalModelWith
    rw [e1]
    have hd : ta.dim = [] := e2.dim
    have hT0 : (newArray [] [(.fin 0 : X ℝ)]).mem ta.data = some (.fin 0) := by
      have := e2.get [] .nil
      simpa [elem] using this
    have hv : mixedSets.isValid (.fin 0) = true := by simp [Component.isValid, mixedSets, X.le]
    simp only [hd, hT0, orMemory, called_ok, except_ok_bind, List.find?_cons, hv]
    simp only [h1, called_ok, except_ok_bind]
    rfl
  · have := a1.vals ((1, 1), SeriesAt [.fin 0, .fin 1000] [.fin 0, .fin 1000] (commonTime mixedSets 0) 2) (by
      have hk := C11_kept daysSet.td.entries daysSet_good.ne (-1) (-1)
      refine List.mem_flatMap.mpr ⟨daysSet.rawSet (-1) (-1), by simp [mixedSets], ?_⟩
      simp only [Sparse.rawSet, hk]
      simp [daysSet])
    have hv := days_value this
    have hc : commonTime mixedSets 0 = 2000 := by
      unfold commonTime
      rw [if_pos (by rfl), year_zero]
    rw [hc] at hv
    exact hv
  · intro own hown
    have := hown.vals ((1, 1), SeriesAt [.fin 0, .fin 1000] [.fin 0, .fin 1000] 0 2) (by
      simp [entriesAt, mixedSets, yearsSet, daysSet, Kept, ownTime, Spec.orderOf])
    exact days_value this

/-! ### Cases -/

/-- A set without time dependence. -/
noncomputable def constantSet : Sparse ℝ := ⟨⟨[.ninf], [((2, -1), [.fin 7])], .c0⟩, false, true⟩

theorem constantSet_good : GoodSparse constantSet :=
  ⟨.inl rfl, by simp [constantSet], .inr ⟨rfl, rfl⟩, by simp [constantSet],
    by intro e he; rw [List.mem_singleton.mp he]; exact ⟨[7], rfl, rfl⟩,
    by intro e he; rw [List.mem_singleton.mp he]; norm_num⟩

/-- Two periods: a set in decimal years with one without time dependence, then a set in days. -/
noncomputable def sampleParts : List (Component ℝ) :=
  [⟨.fin 0, .fin 1827, [yearsSet, constantSet]⟩, ⟨.fin 500, .fin 1000, [daysSet]⟩]

theorem sampleParts_good : ∀ c ∈ sampleParts, ∃ N, GoodSets c.items ⟨-1, -1, .scalar 3⟩ true N := by
  intro c hc
  simp only [sampleParts, List.mem_cons, List.not_mem_nil, or_false] at hc
  rcases hc with rfl | rfl
  · have e : keptIndices (⟨-1, -1, .scalar 3⟩ : Options ℝ) [yearsSet, constantSet] = [(1, 0), (2, -1)] := by
      simp [keptIndices, yearsSet, constantSet, Kept]
    refine ⟨2, ⟨⟨by simp, by simp, ?_, ?_, by rw [e]; decide, by rw [e]; exact ⟨by decide, .inr ⟨(2, -1), by simp, rfl⟩⟩,
      by norm_num, by decide⟩, .inl ?_⟩⟩
    all_goals
      intro s hs
      simp only [List.mem_cons, List.not_mem_nil, or_false] at hs
      rcases hs with rfl | rfl
    exacts [yearsSet_good, constantSet_good, rfl, rfl, .inl rfl, .inr rfl]
  · have e : keptIndices (⟨-1, -1, .scalar 3⟩ : Options ℝ) [daysSet] = [(1, 1)] := by
      simp [keptIndices, daysSet, Kept]
    refine ⟨1, ⟨⟨by simp, by simp, ?_, ?_, by rw [e]; decide, by rw [e]; exact ⟨by decide, .inr ⟨(1, 1), by simp, rfl⟩⟩,
      by norm_num, by decide⟩, .inr ?_⟩⟩
    all_goals
      intro s hs
      rw [List.mem_singleton.mp hs]
    exacts [daysSet_good, rfl, rfl]

-- at the day 600 both components are valid: the second one is chosen for arrays, the first one for a single time
example : ActiveAt sampleParts False (.fin 600) ⟨.fin 500, .fin 1000, [daysSet]⟩ ∧
    ActiveAt sampleParts True (.fin 600) ⟨.fin 0, .fin 1827, [yearsSet, constantSet]⟩ ∧
    ∀ c ∈ sampleParts, ¬ Within c.vs c.ve (.fin (-1)) := by
  simp only [winner_iff, ← valid_false]
  refine ⟨⟨[_], [], rfl, ?_, .inr ⟨id, by simp⟩⟩, ⟨[], [_], rfl, ?_, .inl ⟨trivial, by simp⟩⟩, ?_⟩
  · norm_num [Component.isValid, X.le]
  · norm_num [Component.isValid, X.le]
  · intro c hc
    simp only [sampleParts, List.mem_cons, List.not_mem_nil, or_false] at hc
    rcases hc with rfl | rfl <;> norm_num [Component.isValid, X.le]

-- the coefficient (1, 0) at the day 0 is 1, the first node of the set in decimal years
example : SeriesAt [.fin 2000, .fin 2005] [.fin 1, .fin 2] (ownTime yearsSet (0 : ℝ)) 2 1 := by
  have e : ownTime yearsSet (0 : ℝ) = 2000 := by
    unfold ownTime
    rw [if_pos (by rfl), year_zero]
  rw [e]
  have h := SplineAt.linear (ts := [(2000 : ℝ), 2005]) (row := [1, 2]) (a := 2000) (j := 0) (k := 1)
    (u := 1) (w := 2) ⟨by simp, by simp, by norm_num, by
      intro i hi
      simp only [List.length_cons, List.length_nil] at hi
      interval_cases i <;> norm_num, by norm_num, by norm_num⟩ rfl rfl
  have e2 : line ([(2000 : ℝ), 2005][0]) 1 ([(2000 : ℝ), 2005][1]) 2 2000 = 1 := by norm_num [line]
  rw [e2] at h
  exact .nodes (ts := [2000, 2005]) (vals := [1, 2]) rfl rfl h

-- three times for rows of two points; the output shows minus the coefficient (1, 0) plus the first coordinate,
-- minus the coefficient (1, 1), and minus the degree
example : (match evalModel (K := ℚ) (St := Unit)
      ⟨fun c _ s v rows => some (s, none, some ⟨c.scaleGradient.x * ((rows[1]?.map Prod.fst).getD 0 + v.x),
        c.scaleGradient.y * (rows[2]?.map Prod.fst).getD 0, c.scaleGradient.z * c.degree⟩), fun _ => (),
        fun n => List.replicate n 0, fun n => List.replicate n (.fin 0), 0⟩
      [⟨.fin 0, .fin 1827, [⟨⟨[.fin 2000, .fin 2005], [((1, 0), [.fin 1, .fin 2])], .c1⟩, true, true⟩,
        ⟨⟨[.ninf], [((2, -1), [.fin 7])], .c0⟩, false, true⟩]⟩,
       ⟨.fin 500, .fin 1000, [⟨⟨[.fin 0, .fin 1000], [((1, 1), [.fin 0, .fin 1000])], .c1⟩, false, true⟩]⟩]
      (newArray [3] [.fin 0, .fin (-1), .fin 600])
      (newArray [3, 2, 3] [10, 0, 0, 20, 0, 0, 30, 0, 0, 40, 0, 0, 50, 0, 0, 60, 0, 0]) 0 0 ⟨-1, -1, .default⟩ with
    | .ok (shape, items) => shape == [3, 2, 3] && items ==
        [some (-11), some 0, some (-2), some (-21), some 0, some (-2), none, none, none, none, none, none,
         some (-50), some (-600), some (-1), some (-60), some (-600), some (-1)]
    | .error _ => false) = true := by
  decide +kernel

end Verif.Props
