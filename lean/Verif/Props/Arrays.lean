/-
Property C49: the array functions apply the point functions to each item of the arrays.
-/
import Verif.Lemmas.NdArray
import Verif.Props.FullEval
import Verif.Props.Degree

set_option linter.unusedSectionVars false

namespace Verif.Props

open Verif.Geo Verif.Spec Verif.ShPoint Verif.FullEval Verif.Arr

/-! ### Content of the input arrays -/

/-- Array of vectors with the leading dimensions `lead`: the vector at `idx` is `X idx`. -/
structure VectorsOf {A : Type} (x : NdArray A) (lead : List Nat) (X : List Nat → V3 A) : Prop where
  dim : x.arr.dim = lead ++ [3]
  ndim : x.arr.stride.length = x.arr.dim.length
  get : ∀ idx, Index lead idx →
    elem x.mem x.arr.data x.arr.stride (idx ++ [0]) = some (X idx).x ∧
    elem x.mem x.arr.data x.arr.stride (idx ++ [1]) = some (X idx).y ∧
    elem x.mem x.arr.data x.arr.stride (idx ++ [2]) = some (X idx).z

/-- C contiguous array of pairs with the leading dimensions `lead` and `n` rows: the rows at
`idx` are `C idx`. -/
structure PairsOf (c : NdArray ℝ) (lead : List Nat) (n : Nat) (C : List Nat → List (ℝ × ℝ)) : Prop where
  dim : c.arr.dim = lead ++ [n, 2]
  stride : ∃ s, c.arr.stride = s ++ [2, 1] ∧ s.length = lead.length
  len : ∀ idx, Index lead idx → (C idx).length = n
  get : ∀ idx, Index lead idx → ∀ k p, (C idx)[k]? = some p →
    elem c.mem c.arr.data c.arr.stride (idx ++ [k, 0]) = some p.1 ∧
    elem c.mem c.arr.data c.arr.stride (idx ++ [k, 1]) = some p.2

theorem index_length {d idx : List Nat} (h : Index d idx) : idx.length = d.length := List.Forall₂.length_eq h

theorem index_take {d lead idx : List Nat} (hp : d <+: lead) (h : Index lead idx) :
    Index d (idx.take d.length) := by
  obtain ⟨t, rfl⟩ := hp
  have := List.forall₂_take d.length h
  rwa [List.take_left] at this

theorem offset_append : ∀ (idx : List Nat) (s : List Int) (k t), idx.length = s.length →
    offset (idx ++ k) (s ++ t) = offset idx s + offset k t
  | [], [], k, t, _ => by simp [offset_nil]
  | i :: idx, a :: s, k, t, h => by
    simp only [List.cons_append, offset, offset_append idx s k t (by simpa using h)]
    ring

/-- The point read by the leaf. -/
theorem read_point {x : NdArray ℝ} {lx lead : List Nat} {X : List Nat → V3 ℝ} (hx : VectorsOf x lx X)
    (h1 : x.arr.stride.getLast? = some 1) (hp : lx <+: lead) {idx : List Nat} (h : Index lead idx) :
    readPoint x.mem (at' (some 1) x.arr idx) = some (X (idx.take lx.length)) := by
  have hi := index_take hp h
  obtain ⟨g1, g2, g3⟩ := hx.get _ hi
  have hd : x.arr.dim.length - 1 = lx.length := by rw [hx.dim]; simp
  obtain ⟨s, hs⟩ : ∃ s, x.arr.stride = s ++ [1] := by
    rw [List.getLast?_eq_some_iff] at h1
    exact h1
  have hsl : s.length = lx.length := by
    have := hx.ndim
    rw [hs, hx.dim] at this
    simpa using this
  have hl := index_length hi
  unfold elem at g1 g2 g3
  rw [← offset_eq, hs, offset_append _ _ _ _ (by omega)] at g1 g2 g3
  simp only [offset, Nat.cast_zero, zero_mul, add_zero, Nat.cast_one, one_mul, Nat.cast_ofNat, mul_one] at g1 g2 g3
  have hdata : (at' (some 1) x.arr idx).data = x.arr.data + offset (idx.take lx.length) s := by
    simp only [at', hd, sub]
    rw [hs]
    have := offset_append (idx.take lx.length) s [] [1] (by omega)
    simp only [List.append_nil, offset_nil, add_zero] at this
    rw [this]
  unfold readPoint
  rw [hdata, g1, add_assoc, g2, add_assoc, g3]
  rfl

/-- The rows read by the leaf. -/
theorem read_coef {c : NdArray ℝ} {lc lead : List Nat} {n : Nat} {C : List Nat → List (ℝ × ℝ)}
    (hc : PairsOf c lc n C) (hp : lc <+: lead) {idx : List Nat} (h : Index lead idx) :
    readCoef c.mem (at' (some 2) c.arr idx) = some (C (idx.take lc.length)) := by
  have hi := index_take hp h
  have hd : c.arr.dim.length - 2 = lc.length := by rw [hc.dim]; simp
  obtain ⟨s, hs, hsl⟩ := hc.stride
  have hl := index_length hi
  have hdata : (at' (some 2) c.arr idx).data = c.arr.data + offset (idx.take lc.length) s := by
    simp only [at', hd, sub]
    rw [hs]
    have := offset_append (idx.take lc.length) s [] [2, 1] (by omega)
    simp only [List.append_nil, offset_nil, add_zero] at this
    rw [this]
  have hdim : (at' (some 2) c.arr idx).dim.head? = some n := by
    simp only [at', hd, sub, hl]
    rw [hc.dim, List.drop_left]
    rfl
  have hlen := hc.len _ hi
  have hrow : ∀ k, k < n → ∃ p, (C (idx.take lc.length))[k]? = some p ∧
      c.mem (c.arr.data + offset (idx.take lc.length) s + 2 * k) = some p.1 ∧
      c.mem (c.arr.data + offset (idx.take lc.length) s + 2 * k + 1) = some p.2 := by
    intro k hk
    refine ⟨_, List.getElem?_eq_getElem (by omega), ?_⟩
    obtain ⟨g1, g2⟩ := hc.get _ hi k _ (List.getElem?_eq_getElem (by omega))
    unfold elem at g1 g2
    rw [← offset_eq, hs, offset_append _ _ _ _ (by omega)] at g1 g2
    simp only [offset, Nat.cast_zero, zero_mul, add_zero, Nat.cast_one, mul_one] at g1 g2
    rw [← g1, ← g2]
    constructor <;> congr 1 <;> ring
  unfold readCoef
  rw [hdim]
  simp only [Option.bind_eq_bind, Option.bind_some, readPairs]
  rw [hdata]
  obtain ⟨r, hr⟩ := mapM_isSome (l := List.range n) (f := fun k : Nat =>
    (do return (← c.mem (c.arr.data + offset (idx.take lc.length) s + 2 * k),
      ← c.mem (c.arr.data + offset (idx.take lc.length) s + 2 * k + 1)) : Option (ℝ × ℝ))) (by
    intro k hk
    obtain ⟨p, -, e1, e2⟩ := hrow k (by simpa using hk)
    exact ⟨(p.1, p.2), by rw [e1, e2]; rfl⟩)
  refine hr.trans (congrArg some (List.ext_getElem? fun k => ?_))
  have hg := mapM_get hr k
  by_cases hk : k < n
  · rw [List.getElem?_range hk] at hg
    obtain ⟨p, e0, e1, e2⟩ := hrow k hk
    simp only [Option.bind_some, e1, e2, Option.bind_eq_bind] at hg
    rw [← hg, e0]
    rfl
  · rw [List.getElem?_eq_none (by rw [mapM_length hr, List.length_range]; omega),
      List.getElem?_eq_none (by omega)]

/-! ### sheval -/

/-- `sheval` with real numbers, its buffers have any content (`alloc`, `junk`). -/
noncomputable def shevalArr (fl : Nat → Int) (alloc : Nat → Mem ℝ) (junk : Nat → List ℝ)
    (x coef : NdArray ℝ) (ctIn ctOut mode : Int) (int : Bool) (degree : Int) (sp : ℝ) (sg : Scale ℝ) :
    Except Err (Result ℝ) :=
  sheval fl (fun c m s v rows => modelEvalR c m s v rows) (fun N => init (alloc N)) junk x coef
    ctIn ctOut mode int degree sp sg

/-- Every point has the requested outputs. -/
theorem fresh_total (int : Bool) (N : Nat) (hN : 1 ≤ N) (i o : CT) (sp : ℝ) (sg v : V3 ℝ) (mode : Nat)
    (hm : mode = 1 ∨ mode = 2 ∨ mode = 3) (b : Mem ℝ) (hb : MemOk b N) (coef : List (ℝ × ℝ))
    (hc : CoefOk coef N) : ∃ u, fresh (config int N i o sp sg) mode b v coef = some u ∧
      (u.1.isSome = true ↔ mode = 1 ∨ mode = 3) ∧ (u.2.isSome = true ↔ mode = 2 ∨ mode = 3) := by
  rw [fresh_eq]
  obtain ⟨leg, lcs, rrp, L, P, D, R, ok, -, e⟩ := pointR_fill (int := int) (a := 6371.2)
    (clat := dg2rad libm * (getFconv libm i .spherical v).x)
    (clon := dg2rad libm * (getFconv libm i .spherical v).y)
    (crad := (getFconv libm i .spherical v).z) hN hb hc mode
  have hfix : ∀ g, ∃ g', fixPole Real.sin Real.cos Real.sqrt nearPole N
      (dg2rad libm * (getFconv libm i .spherical v).x) coef lcs rrp g = some g' := by
    intro g
    unfold fixPole
    split
    · rw [dvazPole_spec ok hN]; exact ⟨_, rfl⟩
    · exact ⟨_, rfl⟩
  have hpr : ∀ g, ∃ f, project libm (config int N i o sp sg) (position libm (config int N i o sp sg) v) g =
      some f := by
    intro g
    cases o
    · cases i <;> exact ⟨_, rfl⟩
    · exact ⟨_, rfl⟩
    · exact ⟨_, rfl⟩
  rw [e mode]
  unfold eval
  rcases hm with rfl | rfl | rfl
  · simp only [evalV_spec ok, Option.bind_eq_bind, Option.bind_some, finish]
    exact ⟨_, rfl, by simp, by simp⟩
  · obtain ⟨g', hg'⟩ := hfix (grad0 (coefC coef) L P D R
      (Real.cos (dg2rad libm * (getFconv libm i .spherical v).x)) int N)
    obtain ⟨f, hf⟩ := hpr g'
    simp only [evalDv_spec ok, hg', Option.bind_eq_bind, Option.bind_some, Option.pure_def, finish, hf]
    exact ⟨_, rfl, by simp, by simp⟩
  · obtain ⟨g', hg'⟩ := hfix (grad0 (coefC coef) L P D R
      (Real.cos (dg2rad libm * (getFconv libm i .spherical v).x)) int N)
    obtain ⟨f, hf⟩ := hpr g'
    simp only [evalVDv_spec ok, hg', Option.bind_eq_bind, Option.bind_some, Option.map_some, Option.pure_def,
      finish, hf]
    exact ⟨_, rfl, by simp, by simp⟩

/-- Component of a vector. -/
def comp {A : Type} (v : V3 A) (k : Fin 3) : A := match k with
  | 0 => v.x
  | 1 => v.y
  | 2 => v.z

/-- The arrays match: the leading dimensions of one are the first ones of the other; `lead`
are the longer ones. -/
def Match (lx lc lead : List Nat) : Prop := lx <+: lead ∧ lc <+: lead ∧ (lx = lead ∨ lc = lead)

/-- The degree used with `n` rows for the requested degree. -/
def UsedDegree (n : Nat) (degree : Int) (N : Nat) : Prop :=
  ∃ D, IsLargest n D ∧ (N : Int) = if degree < 0 ∨ (D : Int) < degree then (D : Int) else degree

/-- The scale of the gradient: none, one for all components, one for each component. -/
def ScaleOf (sg : Scale ℝ) (g : V3 ℝ) : Prop :=
  (sg = .default ∧ g = ⟨1, 1, 1⟩) ∨ (∃ s, sg = .scalar s ∧ g = ⟨s, s, s⟩) ∨
    ∃ x y z, sg = .vector [x, y, z] ∧ g = ⟨x, y, z⟩

theorem scaleOf_get {sg : Scale ℝ} {g : V3 ℝ} (h : ScaleOf sg g) : sg.get = some g := by
  rcases h with ⟨rfl, rfl⟩ | ⟨s, rfl, rfl⟩ | ⟨x, y, z, rfl, rfl⟩ <;> rfl

/-- Outputs of all points, collected in the order of the indices. -/
theorem collect_points (int : Bool) (N : Nat) (hN : 1 ≤ N) (i o : CT) (sp : ℝ) (sg : V3 ℝ) (mode : Nat)
    (b : Mem ℝ) (hb : MemOk b N) (lead : List Nat) (P : List Nat → V3 ℝ × List (ℝ × ℝ)) {D : Type}
    (sel : FullEval.Out ℝ → Option D)
    (h : ∀ idx, Index lead idx → ∃ u, fresh (config int N i o sp sg) mode b (P idx).1 (P idx).2 = some u ∧
      ∃ d, sel u = some d) :
    ∃ ds, collect (fun s (q : V3 ℝ × List (ℝ × ℝ)) => modelEvalR (config int N i o sp sg) mode s q.1 q.2) sel
        (init b) ((indices lead).map P) = some ds ∧ ds.length = lead.prod ∧
      (∀ d ∈ ds, ∃ u, sel u = some d) ∧
      ∀ idx, Index lead idx → ∃ u, fresh (config int N i o sp sg) mode b (P idx).1 (P idx).2 = some u ∧
        shevalR int N i o mode sp sg b [P idx] = some [u] ∧ ds[rank lead idx]? = sel u := by
  have hcb := collect_batch libm nearPole (10 ^ 280) (config int N i o sp sg) mode sel
    ((indices lead).map P) (init b)
  have hbf := batch_fresh (config int N i o sp sg) hN mode _ (init_inv (config int N i o sp sg) b hb)
    ((indices lead).map P) b hb
  obtain ⟨os, hos⟩ := mapM_isSome (l := (indices lead).map P)
    (f := fun q => fresh (config int N i o sp sg) mode b q.1 q.2) (by
      intro q hq
      obtain ⟨idx, hi, rfl⟩ := List.mem_map.mp hq
      obtain ⟨u, hu, -⟩ := h idx (mem_indices.mp hi)
      exact ⟨u, hu⟩)
  have hget : ∀ idx, Index lead idx → ∃ u, fresh (config int N i o sp sg) mode b (P idx).1 (P idx).2 = some u ∧
      os[rank lead idx]? = some u := by
    intro idx hi
    obtain ⟨u, hu, -⟩ := h idx hi
    refine ⟨u, hu, ?_⟩
    rw [← mapM_get hos, List.getElem?_map, indices_rank hi]
    exact hu
  have hol := mapM_length hos
  rw [List.length_map, indices_length] at hol
  obtain ⟨ds, hds⟩ := mapM_isSome (l := os) (f := sel) (by
    intro u hu
    obtain ⟨j, hj, rfl⟩ := List.getElem_of_mem hu
    have hji : j < (indices lead).length := by rw [indices_length]; omega
    obtain ⟨u', hu', d, hd⟩ := h _ (mem_indices.mp (List.getElem_mem hji))
    have := mapM_get hos j
    rw [List.getElem?_map, List.getElem?_eq_getElem hji, List.getElem?_eq_getElem hj] at this
    simp only [Option.map_some, Option.bind_some, hu', Option.some.injEq] at this
    exact ⟨d, by rw [← this]; exact hd⟩)
  refine ⟨ds, ?_, ?_, ?_, ?_⟩
  · refine hcb.trans ?_
    rw [show batch libm nearPole (10 ^ 280) (config int N i o sp sg) mode (init b) ((indices lead).map P) = some os
      from hbf.trans hos]
    exact hds
  · rw [mapM_length hds, hol]
  · intro d hd
    obtain ⟨j, hj, rfl⟩ := List.getElem_of_mem hd
    have := mapM_get hds j
    rw [List.getElem?_eq_getElem hj, List.getElem?_eq_getElem (by rw [← mapM_length hds]; exact hj)] at this
    exact ⟨_, this⟩
  · intro idx hi
    obtain ⟨u, hu, hr⟩ := hget idx hi
    refine ⟨u, hu, ?_, ?_⟩
    · unfold shevalR
      rw [batch_fresh (config int N i o sp sg) hN mode _ (init_inv _ b hb) _ b hb, List.mapM_cons, hu]
      rfl
    · rw [← mapM_get hds, hr]
      rfl

/-- **C49** for `sheval` (partial: from degree 1, coordinates of a point next to each other
in the memory).  With matching leading dimensions the call succeeds, the outputs have the
longer leading dimensions, and the items of the outputs at each index are the outputs of
the single evaluation of the point and the coefficients at this index (as far as the
array has the dimensions).  All strides of the other dimensions, the positions of the
arrays in the memory and the content of the new buffers are arbitrary. -/
theorem C49_sheval_partial (fl : Nat → Int) (hf : SqrtDegree fl) (alloc : Nat → Mem ℝ)
    (ha : ∀ N, MemOk (alloc N) N) (junk : Nat → List ℝ) (hj : ∀ n, (junk n).length = n)
    (x coef : NdArray ℝ) (lx lc lead : List Nat) (n : Nat) (X : List Nat → V3 ℝ)
    (C : List Nat → List (ℝ × ℝ)) (hx : VectorsOf x lx X) (h1 : x.arr.stride.getLast? = some 1)
    (hc : PairsOf coef lc n C) (hm : Match lx lc lead) (i o : CT) (mode : Nat)
    (hmode : mode = 1 ∨ mode = 2 ∨ mode = 3) (int : Bool) (degree : Int) (N : Nat) (hn : 1 ≤ n)
    (hn2 : n < 2 ^ 45) (hN : 1 ≤ N) (hd : UsedDegree n degree N) (sp : ℝ) (sg : Scale ℝ) (g : V3 ℝ)
    (hg : ScaleOf sg g) :
    ∃ r, shevalArr fl alloc junk x coef (code i) (code o) mode int degree sp sg = .ok r ∧
      r.shape = lead ∧ (∀ p, r.pot = some p → p.length = lead.prod) ∧
      (∀ p, r.grd = some p → p.length = (lead ++ [3]).prod) ∧
      (r.pot.isSome = true ↔ mode = 1 ∨ mode = 3) ∧ (r.grd.isSome = true ↔ mode = 2 ∨ mode = 3) ∧
      ∀ idx, Index lead idx → ∃ u, shevalR int N i o mode sp g (alloc N)
          [(X (idx.take lx.length), C (idx.take lc.length))] = some [u] ∧
        r.pot.bind (fun p => p[rank lead idx]?) = u.1 ∧
        ∀ k : Fin 3, r.grd.bind (fun p => p[rank (lead ++ [3]) (idx ++ [k.val])]?) =
          u.2.map (fun v => comp v k) := by
  obtain ⟨hpx, hpc, hpl⟩ := hm
  replace hg := scaleOf_get hg
  have hci : checkCT (code i) = some i := by cases i <;> rfl
  have hco : checkCT (code o) = some o := by cases o <;> rfl
  have hcm : checkMode (mode : Int) = some mode := by rcases hmode with rfl | rfl | rfl <;> rfl
  have hmx : minNdim x.arr 1 = some () := by simp [minNdim, hx.dim]
  have hmc : minNdim coef.arr 2 = some () := by simp [minNdim, hc.dim]
  have hrows : coef.arr.dim[coef.arr.dim.length - 2]? = some n := by
    rw [hc.dim, List.getElem?_append_right (by simp)]
    simp
  obtain ⟨D, hD, hDN⟩ := hd
  obtain ⟨-, hdeg⟩ := C50_degree fl hf n hn2 degree
  obtain ⟨D', N', hD', hsel, hN', hrow⟩ := hdeg hn
  have hDD : D' = D := le_antisymm (hD.2 _ hD'.1) (hD'.2 _ hD.1)
  have hNN : N' = N := by rw [hDD] at hN'; omega
  rw [hNN] at hsel hrow
  obtain ⟨rr, hcd, hcn⟩ := commonShape_spec [(lx, [3]), (lc, [n, 2])] lead
    (by intro e he; simp only [List.mem_cons, List.not_mem_nil, or_false] at he
        rcases he with rfl | rfl
        · exact hpx
        · exact hpc)
    (by rcases hpl with h | h
        · exact ⟨(lx, [3]), by simp, h⟩
        · exact ⟨(lc, [n, 2]), by simp, h⟩)
  have hcs := checkShapes_spec _ lead rr hcd [(lx, [3]), (lc, [n, 2])] 0
    (by intro e he; simp only [List.mem_cons, List.not_mem_nil, or_false] at he
        rcases he with rfl | rfl
        · exact hpx
        · exact hpc)
    (by intro e he; simp only [List.mem_cons, List.not_mem_nil, or_false] at he
        rcases he with rfl | rfl <;> simp)
  simp only [List.map_cons, List.map_nil, List.length_cons, List.length_nil, Nat.zero_add, Nat.reduceAdd] at hcd hcn hcs
  rw [← hx.dim, ← hc.dim] at hcd hcn hcs
  have hlead : (commonShape [(x.arr.dim, 1), (coef.arr.dim, 2)]).dims.take
      (commonShape [(x.arr.dim, 1), (coef.arr.dim, 2)]).ndim.toNat = lead := by
    rw [hcd, hcn, Int.toNat_natCast, List.take_left]
  have hfx : Fits lead (some 1) x.arr := ⟨hx.ndim, .inl ⟨lx, [3], hx.dim, rfl, hpx⟩⟩
  have hfc : Fits lead (some 2) coef.arr := by
    obtain ⟨s, hs, hsl⟩ := hc.stride
    exact ⟨by rw [hs, hc.dim]; simp [hsl], .inl ⟨lc, [n, 2], hc.dim, rfl, hpc⟩⟩
  set P : List Nat → V3 ℝ × List (ℝ × ℝ) := fun idx => (X (idx.take lx.length), C (idx.take lc.length)) with hP
  have hr1 : ∀ idx ∈ indices lead, readPoint x.mem (at' (some 1) x.arr idx) = some (X (idx.take lx.length)) :=
    fun idx hi => read_point hx h1 hpx (mem_indices.mp hi)
  have hr2 : ∀ idx ∈ indices lead, readCoef coef.mem (at' (some 2) coef.arr idx) = some (C (idx.take lc.length)) :=
    fun idx hi => read_coef hc hpc (mem_indices.mp hi)
  have hfr : ∀ idx, Index lead idx → ∃ u, fresh (config int N i o sp g) mode (alloc N) (P idx).1 (P idx).2 = some u ∧
      (u.1.isSome = true ↔ mode = 1 ∨ mode = 3) ∧ (u.2.isSome = true ↔ mode = 2 ∨ mode = 3) := by
    intro idx hi
    refine fresh_total int N hN i o sp g _ mode hmode (alloc N) (ha N) _ ?_
    have := hc.len _ (index_take hpc hi)
    have h2 := ncoef_two N
    show (N + 1) * (N + 2) ≤ (C (idx.take lc.length)).length * 2
    rw [this]
    omega
  unfold shevalArr sheval
  simp only [hci, hco, hcm, hmx, hmc, hrows, hsel, hcs, hlead, hg, orValueError, orMemory, if_true,
    Int.toNat_natCast, bind, Except.bind]
  rcases hmode with rfl | rfl | rfl
  · obtain ⟨ds, e1, e2, e4, e3⟩ := collect_points int N hN i o sp g 1 (alloc N) (ha N) lead P
      (fun o => o.1.map (fun p => [p])) (by
        intro idx hi
        obtain ⟨u, hu, hp, -⟩ := hfr idx hi
        obtain ⟨p, hp⟩ := Option.isSome_iff_exists.mp (hp.mpr (by simp))
        exact ⟨u, hu, [p], by simp [hp]⟩)
    have hl : ∀ d ∈ ds, d.length = 1 := by
      intro d hd
      obtain ⟨u, hu⟩ := e4 d hd
      obtain ⟨p, -, rfl⟩ := Option.map_eq_some_iff.mp hu
      rfl
    have hw := shevalPot_eq (fun s v rows => modelEvalR (config int N i o sp g) 1 s v rows) x.mem coef.mem lead
      x.arr coef.arr hfx hfc _ _ hr1 hr2 (init (alloc N)) (junk lead.prod) (hj _)
    rw [e1] at hw
    obtain ⟨w, hw1, hw2⟩ := Option.map_eq_some_iff.mp hw
    simp only [hw1]
    refine ⟨_, rfl, rfl, ?_, by simp, by simp, by simp, ?_⟩
    · rintro p hp
      cases hp
      rw [hw2, flatten_length 1 ds hl, e2, mul_one]
    · intro idx hi
      obtain ⟨u, hu0, hu, hs⟩ := e3 idx hi
      obtain ⟨u', hu', k1, k2⟩ := hfr idx hi
      obtain rfl : u = u' := by rw [hu0] at hu'; exact Option.some.inj hu'
      refine ⟨u, hu, ?_, fun k => ?_⟩
      · have := flatten_get 1 ds (rank lead idx) 0 hl (by omega)
        simp only [mul_one, add_zero] at this
        simp only [Option.bind_some, hw2, this, hs]
        cases u.1 <;> rfl
      · have : u.2 = none := by
          rw [← Option.not_isSome_iff_eq_none, k2]
          simp
        rw [this]
        rfl
  · obtain ⟨ds, e1, e2, e4, e3⟩ := collect_points int N hN i o sp g 2 (alloc N) (ha N) lead P
      (fun o => o.2.map (fun v => [v.x, v.y, v.z])) (by
        intro idx hi
        obtain ⟨u, hu, -, hp⟩ := hfr idx hi
        obtain ⟨p, hp⟩ := Option.isSome_iff_exists.mp (hp.mpr (by simp))
        exact ⟨u, hu, _, by rw [hp]; rfl⟩)
    have hl : ∀ d ∈ ds, d.length = 3 := by
      intro d hd
      obtain ⟨u, hu⟩ := e4 d hd
      obtain ⟨p, -, rfl⟩ := Option.map_eq_some_iff.mp hu
      rfl
    have hw := shevalGrd_eq (fun s v rows => modelEvalR (config int N i o sp g) 2 s v rows) x.mem coef.mem lead
      x.arr coef.arr hfx hfc _ _ hr1 hr2 (init (alloc N)) (junk (lead ++ [3]).prod) (hj _)
    rw [e1] at hw
    obtain ⟨w, hw1, hw2⟩ := Option.map_eq_some_iff.mp hw
    simp only [hw1]
    refine ⟨_, rfl, rfl, by simp, ?_, by simp, by simp, ?_⟩
    · rintro p hp
      cases hp
      rw [hw2, flatten_length 3 ds hl, e2]
      simp
    · intro idx hi
      obtain ⟨u, hu0, hu, hs⟩ := e3 idx hi
      obtain ⟨u', hu', k1, k2⟩ := hfr idx hi
      obtain rfl : u = u' := by rw [hu0] at hu'; exact Option.some.inj hu'
      refine ⟨u, hu, ?_, fun k => ?_⟩
      · have : u.1 = none := by
          rw [← Option.not_isSome_iff_eq_none, k1]
          simp
        rw [this]
        rfl
      · have := flatten_get 3 ds (rank lead idx) k.val hl k.isLt
        rw [rank_append 3 k.val hi]
        simp only [Option.bind_some, hw2, this, hs]
        cases u.2 with
        | none => rfl
        | some v => fin_cases k <;> rfl
  · obtain ⟨ds, e1, e2, e4, e3⟩ := collect_points int N hN i o sp g 3 (alloc N) (ha N) lead P
      (fun o => o.1.bind (fun p => o.2.map (fun v => ([p], [v.x, v.y, v.z])))) (by
        intro idx hi
        obtain ⟨u, hu, hp, hq⟩ := hfr idx hi
        obtain ⟨p, hp⟩ := Option.isSome_iff_exists.mp (hp.mpr (by simp))
        obtain ⟨q, hq⟩ := Option.isSome_iff_exists.mp (hq.mpr (by simp))
        exact ⟨u, hu, _, by rw [hp, hq]; rfl⟩)
    have hl : ∀ d ∈ ds, d.1.length = 1 ∧ d.2.length = 3 := by
      intro d hd
      obtain ⟨u, hu⟩ := e4 d hd
      simp only [Option.bind_eq_some_iff, Option.map_eq_some_iff] at hu
      obtain ⟨p, -, v, -, rfl⟩ := hu
      exact ⟨rfl, rfl⟩
    have hl1 : ∀ d ∈ ds.map Prod.fst, d.length = 1 := by
      intro d hd
      obtain ⟨e, he, rfl⟩ := List.mem_map.mp hd
      exact (hl e he).1
    have hl2 : ∀ d ∈ ds.map Prod.snd, d.length = 3 := by
      intro d hd
      obtain ⟨e, he, rfl⟩ := List.mem_map.mp hd
      exact (hl e he).2
    have hw := shevalBoth_eq (fun s v rows => modelEvalR (config int N i o sp g) 3 s v rows) x.mem coef.mem lead
      x.arr coef.arr hfx hfc _ _ hr1 hr2 (init (alloc N)) (junk lead.prod) (junk (lead ++ [3]).prod) (hj _) (hj _)
    rw [e1] at hw
    obtain ⟨w, hw1, hw2⟩ := Option.map_eq_some_iff.mp hw
    simp only [hw1]
    refine ⟨_, rfl, rfl, ?_, ?_, by simp, by simp, ?_⟩
    · rintro p hp
      cases hp
      rw [hw2, flatten_length 1 _ hl1, List.length_map, e2, mul_one]
    · rintro p hp
      cases hp
      rw [hw2, flatten_length 3 _ hl2, List.length_map, e2]
      simp
    · intro idx hi
      obtain ⟨u, hu0, hu, hs⟩ := e3 idx hi
      obtain ⟨u', hu', k1, k2⟩ := hfr idx hi
      obtain rfl : u = u' := by rw [hu0] at hu'; exact Option.some.inj hu'
      obtain ⟨p, hp⟩ := Option.isSome_iff_exists.mp (k1.mpr (by simp))
      obtain ⟨q, hq⟩ := Option.isSome_iff_exists.mp (k2.mpr (by simp))
      refine ⟨u, hu, ?_, fun k => ?_⟩
      · have := flatten_get 1 (ds.map Prod.fst) (rank lead idx) 0 hl1 (by omega)
        simp only [mul_one, add_zero] at this
        simp only [Option.bind_some, hw2, this, List.getElem?_map, hs, hp, hq, Option.map_some]
        rfl
      · have := flatten_get 3 (ds.map Prod.snd) (rank lead idx) k.val hl2 k.isLt
        rw [rank_append 3 k.val hi]
        simp only [Option.bind_some, hw2, this, List.getElem?_map, hs, hp, hq, Option.map_some]
        fin_cases k <;> rfl

/-- **C49** `sheval` refuses with `ValueError` shapes which do not match, coefficients which
are not pairs, an empty coefficient array, and unknown coordinate types and modes. -/
theorem C49_sheval_rejects (fl : Nat → Int) (hf : SqrtDegree fl) (alloc : Nat → Mem ℝ)
    (junk : Nat → List ℝ) (x coef : NdArray ℝ) (lx lc : List Nat) (k n m : Nat) (hx : x.arr.dim = lx ++ [k])
    (hc : coef.arr.dim = lc ++ [n, m]) (ctIn ctOut mode : Int) (int : Bool) (degree : Int) (sp : ℝ)
    (sg : Scale ℝ)
    (h : (¬lx <+: lc ∧ ¬lc <+: lx) ∨ m ≠ 2 ∨ n = 0 ∨ (ctIn ≠ 0 ∧ ctIn ≠ 1 ∧ ctIn ≠ 2) ∨
      (ctOut ≠ 0 ∧ ctOut ≠ 1 ∧ ctOut ≠ 2) ∨ (mode ≠ 1 ∧ mode ≠ 2 ∧ mode ≠ 3)) :
    shevalArr fl alloc junk x coef ctIn ctOut mode int degree sp sg = .error .valueError := by
  have hmx : minNdim x.arr 1 = some () := by simp [minNdim, hx]
  have hmc : minNdim coef.arr 2 = some () := by simp [minNdim, hc]
  have hrows : coef.arr.dim[coef.arr.dim.length - 2]? = some n := by
    rw [hc, List.getElem?_append_right (by simp)]
    simp
  have hct : ∀ c : Int, c ≠ 0 ∧ c ≠ 1 ∧ c ≠ 2 → checkCT c = none := by
    rintro c ⟨h0, h1, h2⟩
    simp [checkCT, h0, h1, h2]
  unfold shevalArr sheval
  cases hi : checkCT ctIn with
  | none => rfl
  | some i =>
  cases ho : checkCT ctOut with
  | none => rfl
  | some o =>
  cases hm : checkMode mode with
  | none => rfl
  | some md =>
  simp only [hmx, hmc, hrows, orValueError, orMemory, bind, Except.bind]
  cases hs : selectDegree [sizeToDegree fl n] degree with
  | none => rfl
  | some d =>
  have hshape : checkShapes (commonShape [(x.arr.dim, 1), (coef.arr.dim, 2)]) 0
      [(x.arr.dim, 1), (coef.arr.dim, 2)] = false := by
    have hlast : m ≠ 2 → ∀ c : Common,
        checkShapes c 0 [(x.arr.dim, 1), (coef.arr.dim, 2)] = false := by
      intro hm2 c
      have : coef.arr.dim[coef.arr.dim.length - 1]? = some m := by
        rw [hc, List.getElem?_append_right (by simp)]
        simp
      simp only [checkShapes, this]
      split
      · rfl
      · rw [if_neg (by simp)]
        split
        · rfl
        · rw [if_pos (by simpa using hm2)]
    rcases h with ⟨h1, h2⟩ | h | h | h | h | h
    · have key : ∀ (q r p c : List Nat), p.length ≤ q.length → ¬p <+: q →
          compareDims (q ++ r) (p ++ c) p.length = true := by
        intro q r p c hl hp
        by_contra hcon
        exact hp (compareDims_prefix hl (by simpa using hcon))
      by_cases hl : lx.length < lc.length
      · have e : commonShape [(x.arr.dim, 1), (coef.arr.dim, 2)] = ⟨1, lc.length, lc ++ [n, m]⟩ := by
          rw [hx, hc]
          simp [commonShape, commonLoop, hl]
        rw [e, hx, hc]
        have := key lc [n, m] lx [k] (by omega) h1
        simp [checkShapes, this]
      · have e : commonShape [(x.arr.dim, 1), (coef.arr.dim, 2)] = ⟨0, lx.length, lx ++ [k]⟩ := by
          rw [hx, hc]
          simp [commonShape, commonLoop, hl]
        rw [e, hx, hc]
        have := key lx [k] lc [n, m] (by omega) h2
        simp [checkShapes, this]
    · exact hlast h _
    · subst h
      obtain ⟨h0, -⟩ := C50_degree fl hf 0 (by norm_num) degree
      rw [h0 rfl] at hs
      simp at hs
    · rw [hct _ h] at hi; simp at hi
    · rw [hct _ h] at ho; simp at ho
    · obtain ⟨h0, h1, h2⟩ := h
      simp [checkMode, h0, h1, h2] at hm
  rw [hshape]
  rfl

/-- A memory of the given cells. -/
def cells (l : List ℝ) : Int → Option ℝ := fun p => if p < 0 then none else l[p.toNat]?

/-- An array of two points and three rows of coefficients, and the shapes match. -/
example : VectorsOf ⟨cells [1, 2, 3, 4, 5, 6], ⟨0, [2, 3], [3, 1]⟩⟩ [2]
      (fun idx => if idx = [0] then ⟨1, 2, 3⟩ else ⟨4, 5, 6⟩) ∧
    PairsOf ⟨cells [1, 0, 2, 0, 3, 4], ⟨0, [3, 2], [2, 1]⟩⟩ [] 3 (fun _ => [(1, 0), (2, 0), (3, 4)]) ∧
    Match [2] [] [2] ∧ UsedDegree 3 (-1) 1 := by
  refine ⟨⟨rfl, rfl, ?_⟩, ⟨rfl, ⟨[], rfl, rfl⟩, fun _ _ => rfl, ?_⟩, ⟨List.prefix_rfl, List.nil_prefix, .inl rfl⟩,
    ⟨1, ⟨by decide, ?_⟩, by simp⟩⟩
  · intro idx h
    cases h with
    | cons h1 h2 =>
      cases h2
      rename_i a
      have : a = 0 ∨ a = 1 := by omega
      rcases this with rfl | rfl <;> simp [elem, cells]
  · intro idx h q p hp
    cases h
    have : q = 0 ∨ q = 1 ∨ q = 2 := by
      by_contra hc
      rw [List.getElem?_eq_none (by simp; omega)] at hp
      simp at hp
    rcases this with rfl | rfl | rfl <;> (simp at hp; subst hp; simp [elem, cells])
  · intro d hd
    by_contra hc
    exact absurd ((ncoef_mono (show 2 ≤ d by omega)).trans hd) (by decide)

/-- **C49** fails for points with less than three coordinates: they are not refused, the
memory behind the array is read. -/
theorem C49_short_points_overrun (fl : Nat → Int) (hf : SqrtDegree fl) (alloc : Nat → Mem ℝ)
    (junk : Nat → List ℝ) (p q : ℝ) (coef : NdArray ℝ) (n : Nat) (C : List Nat → List (ℝ × ℝ))
    (hc : PairsOf coef [] n C) (hn : 1 ≤ n) (hn2 : n < 2 ^ 45) (i o : CT) (mode : Nat)
    (hmode : mode = 1 ∨ mode = 2 ∨ mode = 3) (int : Bool) (degree : Int) (sp : ℝ) :
    shevalArr fl alloc junk ⟨cells [p, q], ⟨0, [2], [1]⟩⟩ coef (code i) (code o) mode int degree sp .default =
      .error .memory := by
  have hci : checkCT (code i) = some i := by cases i <;> rfl
  have hco : checkCT (code o) = some o := by cases o <;> rfl
  have hcm : checkMode (mode : Int) = some mode := by rcases hmode with rfl | rfl | rfl <;> rfl
  have hmx : minNdim ⟨0, [2], [1]⟩ 1 = some () := rfl
  have hmc : minNdim coef.arr 2 = some () := by simp [minNdim, hc.dim]
  have hrows : coef.arr.dim[coef.arr.dim.length - 2]? = some n := by simp [hc.dim]
  obtain ⟨-, hdeg⟩ := C50_degree fl hf n hn2 degree
  obtain ⟨D, N, -, hsel, -, -⟩ := hdeg hn
  have hsh : commonShape [([2], 1), (coef.arr.dim, 2)] = ⟨0, 0, [2]⟩ := by
    rw [hc.dim]; simp [commonShape, commonLoop]
  have hck : checkShapes ⟨0, 0, [2]⟩ 0 [([2], 1), (coef.arr.dim, 2)] = true := by
    rw [hc.dim]; simp [checkShapes, compareDims]
  have hrd : readPoint (cells [p, q]) ⟨0, [2], [1]⟩ = none := by simp [readPoint, cells]
  unfold shevalArr sheval
  simp only [hci, hco, hcm, hmx, hmc, hrows, hsel, hsh, hck, orValueError, orMemory, if_true, Scale.get,
    bind, Except.bind]
  rcases hmode with rfl | rfl | rfl
  · simp [shevalPot, walk, hrd]
  · simp [shevalGrd, walk, hrd]
  · simp [shevalBoth, walk, hrd]

/-- **C49** fails for points whose coordinates are not next to each other in the memory
(e.g. a transposed array): the coordinates read are the neighbouring cells instead. -/
theorem C49_last_stride_ignored (fl : Nat → Int) (alloc : Nat → Mem ℝ) (junk : Nat → List ℝ)
    (l : List ℝ) (t : Int) (coef : NdArray ℝ) (n : Nat) (C : List Nat → List (ℝ × ℝ))
    (hc : PairsOf coef [] n C) (ctIn ctOut mode : Int) (int : Bool) (degree : Int) (sp : ℝ) (sg : Scale ℝ) :
    shevalArr fl alloc junk ⟨cells l, ⟨0, [3], [t]⟩⟩ coef ctIn ctOut mode int degree sp sg =
      shevalArr fl alloc junk ⟨cells l, ⟨0, [3], [1]⟩⟩ coef ctIn ctOut mode int degree sp sg := by
  have hsh : commonShape [([3], 1), (coef.arr.dim, 2)] = ⟨0, 0, [3]⟩ := by
    rw [hc.dim]; simp [commonShape, commonLoop]
  have hrd : readPoint (cells l) ⟨0, [3], [t]⟩ = readPoint (cells l) ⟨0, [3], [1]⟩ := rfl
  have hmx : minNdim ⟨0, [3], [t]⟩ 1 = minNdim ⟨0, [3], [1]⟩ 1 := rfl
  unfold shevalArr sheval
  simp only [hsh, shevalPot, shevalGrd, shevalBoth, walk, hrd, hmx, Int.toNat_zero, List.take_zero, List.nil_append,
    List.length_nil, Nat.zero_add, gt_iff_lt, Nat.lt_irrefl, if_false]

/-- The same cells are different points with the strides 2 and 1. -/
example : VectorsOf ⟨cells [10, 0, 20, 0, 7000], ⟨0, [3], [2]⟩⟩ [] (fun _ => ⟨10, 20, 7000⟩) ∧
    VectorsOf ⟨cells [10, 0, 20, 0, 7000], ⟨0, [3], [1]⟩⟩ [] (fun _ => ⟨10, 0, 20⟩) := by
  constructor <;> refine ⟨rfl, rfl, fun idx h => ?_⟩ <;> cases h <;> simp [elem, cells]

end Verif.Props
