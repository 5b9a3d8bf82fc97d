import Verif.Props.FieldTree
import Verif.Props.DipoleEval
import Verif.Props.ArrayFunctions
import Verif.Model.DipoleModel

/-!
# C77: models in the frame of the magnetic dipole, on arrays
-/

set_option linter.unusedSectionVars false

namespace Verif.Props

open Verif.Geo Verif.Spec Verif.ShPoint Verif.FullEval Verif.Arr Verif.Buf Verif.Field Verif.Coeffs Verif.ModelEval

/-! ### Functions of arrays -/

theorem nd_vectors {A : Type} {lead : List Nat} {data : List A} {F : List Nat → V3 A}
    (h : ∀ idx, Index lead idx → ∀ k : Fin 3, data[rank (lead ++ [3]) (idx ++ [k.val])]? = some (comp (F idx) k)) :
    VectorsOf (newArray (lead ++ [3]) data) lead F := by
  refine ⟨rfl, by simp [newArray, contiguous, cstrides_length], fun idx hi => ?_⟩
  have key : ∀ k : Fin 3, elem (newArray (lead ++ [3]) data).mem (newArray (lead ++ [3]) data).arr.data
      (newArray (lead ++ [3]) data).arr.stride (idx ++ [k.val]) = some (comp (F idx) k) := by
    intro k
    have hik : Index (lead ++ [3]) (idx ++ [k.val]) := List.rel_append hi (.cons k.isLt .nil)
    unfold elem newArray contiguous
    simp only
    rw [← offset_eq, ← rank_eq hik, zero_add]
    unfold rdI rd
    rw [if_pos (by omega), Int.toNat_natCast]
    exact h idx hi k
  exact ⟨key 0, key 1, key 2⟩

theorem nd_flat (lead : List Nat) (F : List Nat → V3 ℝ) :
    ∀ idx, Index lead idx → ∀ k : Fin 3,
      (((indices lead).map (fun idx => xyz (F idx))).flatten)[rank (lead ++ [3]) (idx ++ [k.val])]? = some (comp (F idx) k) := by
  intro idx hi k
  rw [rank_append 3 k.val hi, flatten_get 3 _ _ k.val (by
    intro b hb
    obtain ⟨x, -, rfl⟩ := List.mem_map.mp hb
    rfl) k.isLt, List.getElem?_map, indices_rank hi]
  exact xyz_get _ k

theorem nd_convert (junk : Nat → List ℝ) (hj : ∀ n, (junk n).length = n) {x : NdArray ℝ} {lead : List Nat}
    (hl : lead.length ≤ 15) {P : List Nat → V3 ℝ} (hx : VectorsOf x lead P) (i o : CT) :
    ∃ y, convertNd libm junk x (code i) (code o) = .ok y ∧ VectorsOf y lead (fun idx => getFconv libm i o (P idx)) := by
  by_cases hio : i = o
  · subst hio
    refine ⟨x, ?_, ?_⟩
    · unfold convertNd
      rw [C49_convert_alias junk x lead hl P hx i]
      rfl
    · have : ∀ v : V3 ℝ, getFconv libm i i v = v := by
        intro v
        cases i <;> rfl
      simpa only [this] using hx
  · obtain ⟨data, h1, -, h3⟩ := C49_convert junk hj x lead hl P hx i o hio
    refine ⟨newArray (lead ++ [3]) data, ?_, nd_vectors fun idx hi k => ?_⟩
    · unfold convertNd
      rw [h1]
      rfl
    · obtain ⟨v, a, b⟩ := h3 idx hi
      rw [convert_code] at a
      rw [b k, Option.some.inj a]

theorem nd_rows {x : NdArray ℝ} {lead : List Nat} {P : List Nat → V3 ℝ} (hx : VectorsOf x lead P) :
    rowsOf x.arr.dim.dropLast.prod (x.arr.dim.getLastD 0) ((indices lead).map (fun idx => xyz (P idx))).flatten =
      (indices lead).map (fun idx => xyz (P idx)) := by
  have := rowsOf_flatten 3 ((indices lead).map (fun idx => xyz (P idx))) (by
    intro b hb
    obtain ⟨x, -, rfl⟩ := List.mem_map.mp hb
    rfl)
  rw [List.length_map, indices_length] at this
  rw [hx.dim]
  simpa using this

theorem nd_mapM {A B : Type} {f : A → Option B} {g : List Nat → A} {h : List Nat → B} (l : List (List Nat))
    (H : ∀ idx ∈ l, f (g idx) = some (h idx)) : (l.map g).mapM f = some (l.map h) := by
  induction l with
  | nil => rfl
  | cons a l ih =>
    rw [List.map_cons, List.mapM_cons, H a (by simp), ih (fun idx hi => H idx (by simp [hi]))]
    rfl

theorem nd_dot {x : NdArray ℝ} {lead : List Nat} {P : List Nat → V3 ℝ} (hx : VectorsOf x lead P) (m : M3 ℝ) :
    ∃ y, dotNd x m = .ok y ∧ y.arr = contiguous (lead ++ [3]) ∧ VectorsOf y lead (fun idx => dot (P idx) m) := by
  refine ⟨newArray (lead ++ [3]) ((indices lead).map (fun idx => xyz (dot (P idx) m))).flatten, ?_, rfl,
    nd_vectors (nd_flat lead _)⟩
  unfold dotNd
  rw [reads_points hx]
  simp only [orMemory, except_ok_bind, nd_rows hx]
  rw [nd_mapM (f := dotRow m) (g := fun idx => xyz (P idx)) (h := fun idx => xyz (dot (P idx) m)) (indices lead)
    (fun idx _ => rfl)]
  simp only [orValueError, except_ok_bind, hx.dim]
  rfl

theorem nd_last {x : NdArray ℝ} {lead : List Nat} {P : List Nat → V3 ℝ} (hx : VectorsOf x lead P) (k : Fin 3) :
    ScalarsOf (lastIndex x k.val) lead (fun idx => comp (P idx) k) := by
  have hsl : x.arr.stride.length = lead.length + 1 := by rw [hx.ndim, hx.dim]; simp
  obtain ⟨s, t, hs⟩ : ∃ s t, x.arr.stride = s ++ [t] := by
    rw [← List.dropLast_append_getLast (l := x.arr.stride) (by intro h0; rw [h0] at hsl; simp at hsl)]
    exact ⟨_, _, rfl⟩
  have hsl' : s.length = lead.length := by rw [hs] at hsl; simpa using hsl
  refine ⟨by simp [lastIndex, hx.dim], by simp [lastIndex, hx.dim, hs, hsl'], fun idx hi => ?_⟩
  have hil := index_length hi
  have g : elem x.mem x.arr.data x.arr.stride (idx ++ [k.val]) = some (comp (P idx) k) := by
    obtain ⟨g0, g1, g2⟩ := hx.get idx hi
    fin_cases k
    exacts [g0, g1, g2]
  rw [← g]
  unfold elem lastIndex
  simp only
  rw [← offset_eq, ← offset_eq, hs, offset_append _ _ _ _ (by omega)]
  simp only [List.dropLast_concat, offset]
  congr 1
  simp
  ring

theorem nd_rotate (f : V3 ℝ → ℝ → ℝ → V3 ℝ) (junk : Nat → List ℝ) (hj : ∀ n, (junk n).length = n) {x a o : NdArray ℝ}
    {lead : List Nat} (hl : lead.length ≤ 15) {P : List Nat → V3 ℝ} {S T : List Nat → ℝ} (hx : VectorsOf x lead P)
    (ha : ScalarsOf a lead S) (ho : ScalarsOf o lead T) :
    ∃ data, vrot2Arr f junk x a o = .ok (lead ++ [3], data) ∧
      VectorsOf (newArray (lead ++ [3]) data) lead (fun idx => f (P idx) (S idx) (T idx)) := by
  obtain ⟨data, h1, -, h3⟩ := (C49_vrot f junk hj x a o lead lead lead hl P S T hx ha ho).1 (.inr rfl) (.inr rfl)
  refine ⟨data, h1, nd_vectors fun idx hi k => ?_⟩
  have := h3 idx hi k
  rwa [← index_length hi, List.take_length] at this

/-- `convert_to_dipole` of arrays. -/
theorem nd_toDipole (junk : Nat → List ℝ) (hj : ∀ n, (junk n).length = n) {x : NdArray ℝ} {lead : List Nat}
    (hl : lead.length ≤ 15) {P : List Nat → V3 ℝ} (hx : VectorsOf x lead P) (latN lonN : ℝ) (i : CT) :
    ∃ y, convertToDipoleNd libm junk x latN lonN (code i) = .ok y ∧ y.arr.stride.getLast? = some 1 ∧
      VectorsOf y lead (fun idx => convCartSph libm (dot (getFconv libm i .cartesian (P idx)) (dipoleMatrix libm latN lonN))) := by
  obtain ⟨a, a1, a2⟩ := nd_convert junk hj hl hx i .cartesian
  obtain ⟨b, b1, -, b2⟩ := nd_dot a2 (dipoleMatrix libm latN lonN)
  obtain ⟨data, c1, -, c3⟩ := C49_convert junk hj b lead hl _ b2 .cartesian .spherical (by simp)
  refine ⟨newArray (lead ++ [3]) data, ?_, ?_, nd_vectors fun idx hi k => ?_⟩
  · unfold convertToDipoleNd convertNd
    unfold convertNd at a1
    have e2 : (code .cartesian : Int) = 2 := rfl
    have e1 : (code .spherical : Int) = 1 := rfl
    rw [e2] at a1 c1
    rw [e1] at c1
    simp only [a1, except_ok_bind, b1, c1]
    rfl
  · simp only [newArray, contiguous]
    clear hx hl a2 b2 c3 c1 a1 b1
    induction lead with
    | nil => simp [cstrides]
    | cons n l ih =>
      rw [List.cons_append, cstrides, List.getLast?_cons, ih]
      rfl
  · obtain ⟨v, e1, e2⟩ := c3 idx hi
    rw [convert_code] at e1
    rw [e2 k, ← Option.some.inj e1]
    rfl

/-- `rotate_vectors_from_dipole` of arrays, in terms of the function of single vectors. -/
theorem nd_fromDipole (junk : Nat → List ℝ) (hj : ∀ n, (junk n).length = n) {u d x : NdArray ℝ} {lead : List Nat}
    (hl : lead.length ≤ 15) {U D P : List Nat → V3 ℝ} (hu : VectorsOf u lead U) (hd : VectorsOf d lead D)
    (hx : VectorsOf x lead P) (latN lonN : ℝ) (i o : CT) :
    ∃ y W, rotateVectorsFromDipoleNd libm junk u latN lonN d x (code i) (code o) = .ok y ∧ VectorsOf y lead W ∧
      ∀ idx, rotateVectorsFromDipole libm (U idx) latN lonN (D idx) (P idx) (code i) (code o) = some (W idx) := by
  obtain ⟨data, a1, a2⟩ := nd_rotate (vrotSph2cart libm) junk hj hl hu (nd_last hd 0) (nd_last hd 1)
  obtain ⟨b, b1, -, b2⟩ := nd_dot a2 (dipoleMatrix libm latN lonN).transpose
  have a1 : vrot2Arr (vrotSph2cart libm) junk u (lastIndex d 0) (lastIndex d 1) = .ok (lead ++ [3], data) := a1
  by_cases ho : o = .cartesian
  · subst ho
    refine ⟨b, _, ?_, b2, fun idx => rfl⟩
    unfold rotateVectorsFromDipoleNd
    have hc2 : code .cartesian = 2 := rfl
    rw [if_pos hc2]
    unfold vrotFromDipoleNd
    simp only [a1, except_ok_bind, b1, if_pos hc2]
    rfl
  · obtain ⟨c, c1, c2⟩ := nd_convert junk hj hl hx i o
    obtain ⟨data', e1, e2⟩ := nd_rotate (vrotCart2sph libm) junk hj hl b2 (nd_last c2 0) (nd_last c2 1)
    have e1 : vrot2Arr (vrotCart2sph libm) junk b (lastIndex c 0) (lastIndex c 1) = .ok (lead ++ [3], data') := e1
    have hne : code o ≠ 2 := by cases o <;> simp_all [code]
    refine ⟨newArray (lead ++ [3]) data', _, ?_, e2, fun idx => ?_⟩
    · unfold rotateVectorsFromDipoleNd
      rw [if_neg hne]
      simp only [c1, except_ok_bind]
      unfold vrotFromDipoleNd
      simp only [a1, except_ok_bind, b1, if_neg hne, orValueError, e1]
      rfl
    · unfold rotateVectorsFromDipole
      rw [if_neg hne, convert_code]
      simp only [Option.bind_eq_bind, Option.bind_some]
      unfold vrotFromDipole
      rw [if_neg hne]
      rfl

/-! ### One component -/

/-- The product with the scale. -/
def scaledBy (w g : V3 ℝ) : V3 ℝ := ⟨w.x * g.x, w.y * g.y, w.z * g.z⟩

/-- The single evaluation in the dipole frame with the coefficients at the time. -/
def IsDipoleVal (alloc : Nat → Mem ℝ) (latN lonN : ℝ) (sets : List (Sparse ℝ)) (opt : Options ℝ) (int : Bool) (N : Nat)
    (g : V3 ℝ) (i o : CT) (t : ℝ) (x v : V3 ℝ) : Prop :=
  ∃ d u w, convertToDipole libm x latN lonN (code i) = some d ∧
    IsVal alloc sets opt int N ⟨1, 1, 1⟩ .spherical .spherical t d u ∧
    rotateVectorsFromDipole libm u latN lonN d x (code i) (code o) = some w ∧ v = scaledBy w g

theorem toDipole_eq (latN lonN : ℝ) (i : CT) (x : V3 ℝ) : convertToDipole libm x latN lonN (code i) =
    some (convCartSph libm (dot (getFconv libm i .cartesian x) (dipoleMatrix libm latN lonN))) := by
  unfold convertToDipole
  rw [show convert libm x (code i) 2 = some (getFconv libm i .cartesian x) from convert_code i .cartesian x]
  rfl

/-- `g` is meant by the scale: as for the other models, and a single item for all components, too. -/
def BroadScaleOf (sc : Scale ℝ) (g : V3 ℝ) : Prop := ScaleOf sc g ∨ ∃ s, sc = .vector [s] ∧ g = ⟨s, s, s⟩

theorem scaleRow_of {sc : Scale ℝ} {g : V3 ℝ} (h : BroadScaleOf sc g) (w : V3 ℝ) :
    scaleRow sc (xyz w) = some (xyz (scaledBy w g)) := by
  rcases h with (⟨rfl, rfl⟩ | ⟨s, rfl, rfl⟩ | ⟨x, y, z, rfl, rfl⟩) | ⟨s, rfl, rfl⟩
  rotate_right
  · rfl
  · simp [scaleRow, xyz, scaledBy]
  · rfl
  · rfl

theorem dipole_unscaled (alloc : Nat → Mem ℝ) (ha : ∀ N, MemOk (alloc N) N) (junk : Nat → List ℝ)
    (hj : ∀ n, (junk n).length = n) (junkX : Nat → List (X ℝ)) (hjX : ∀ n, (junkX n).length = n) (year : Int)
    (latN lonN : ℝ) (opt : Options ℝ) (int : Bool) (i o : CT) (c : Component ℝ) (N : Nat) (hc : GoodSets c.items opt int N)
    (time : NdArray (X ℝ)) (loc : NdArray ℝ) (lt lead : List Nat) (T : List Nat → X ℝ) (τ : List Nat → ℝ)
    (P : List Nat → V3 ℝ) (ht : ItemsOf time lt T) (hT : ∀ idx, Index lt idx → T idx = .fin (τ idx))
    (hl : lt.length ≤ 15) (hx : VectorsOf loc lead P) (hl15 : lead.length ≤ 15) (hp : lt <+: lead) :
    ∃ y W, evalDipoleUnscaled libm (realEnv alloc junk junkX year) latN lonN c time loc (code i) (code o) opt = .ok y ∧
      VectorsOf y lead W ∧ ∀ idx, Index lead idx → ∃ d u, convertToDipole libm (P idx) latN lonN (code i) = some d ∧
        IsVal alloc c.items opt int N ⟨1, 1, 1⟩ .spherical .spherical (τ (idx.take lt.length)) d u ∧
        rotateVectorsFromDipole libm u latN lonN d (P idx) (code i) (code o) = some (W idx) := by
  obtain ⟨d, d1, d2, d3⟩ := nd_toDipole junk hj hl15 hx latN lonN i
  have hc' : GoodSets c.items { opt with scale := .default } int N :=
    ⟨⟨hc.some, hc.limit, hc.good, hc.source, hc.nodup, hc.degree, hc.one, hc.fits⟩, hc.unit⟩
  obtain ⟨r, r1, -, r3⟩ := evalComponent_ok alloc ha junk hj junkX hjX year c { opt with scale := .default } int N hc' time
    d lt lead T τ _ ht hT hl d3 d2 hp .spherical .spherical ⟨1, 1, 1⟩ (.inl ⟨rfl, rfl⟩)
  let U : List Nat → V3 ℝ := fun idx => ⟨(r[rank (lead ++ [3]) (idx ++ [0])]?).getD 0,
    (r[rank (lead ++ [3]) (idx ++ [1])]?).getD 0, (r[rank (lead ++ [3]) (idx ++ [2])]?).getD 0⟩
  have hU : ∀ idx, Index lead idx → IsVal alloc c.items opt int N ⟨1, 1, 1⟩ .spherical .spherical
      (τ (idx.take lt.length)) (convCartSph libm (dot (getFconv libm i .cartesian (P idx)) (dipoleMatrix libm latN lonN)))
      (U idx) ∧ ∀ k : Fin 3, r[rank (lead ++ [3]) (idx ++ [k.val])]? = some (comp (U idx) k) := by
    intro idx hi
    obtain ⟨v, a, b⟩ := r3 idx hi
    have e : U idx = v := by
      have b0 : r[rank (lead ++ [3]) (idx ++ [0])]? = some v.x := b 0
      have b1 : r[rank (lead ++ [3]) (idx ++ [1])]? = some v.y := b 1
      have b2 : r[rank (lead ++ [3]) (idx ++ [2])]? = some v.z := b 2
      simp only [U, b0, b1, b2, Option.getD_some]
    rw [e]
    exact ⟨a, b⟩
  obtain ⟨y, W, y1, y2, y3⟩ := nd_fromDipole junk hj hl15 (nd_vectors (fun idx hi => (hU idx hi).2)) d3 hx latN lonN i o
  refine ⟨y, W, ?_, y2, fun idx hi => ⟨_, U idx, toDipole_eq latN lonN i (P idx), (hU idx hi).1, y3 idx⟩⟩
  have hjk : (realEnv alloc junk junkX year).junk = junk := rfl
  have hdd : d.arr.dim = lead ++ [3] := d3.dim
  have r1 : evalComponent (realEnv alloc junk junkX year) c time d 1 1 { opt with scale := .default } = .ok r := r1
  unfold evalDipoleUnscaled
  simp only [hjk, d1, except_ok_bind, r1, hdd, y1]

theorem dipole_evaluator (alloc : Nat → Mem ℝ) (ha : ∀ N, MemOk (alloc N) N) (junk : Nat → List ℝ)
    (hj : ∀ n, (junk n).length = n) (junkX : Nat → List (X ℝ)) (hjX : ∀ n, (junkX n).length = n) (year : Int)
    (latN lonN : ℝ) (opt : Options ℝ) (int : Bool) (i o : CT) (g : V3 ℝ) (hg : BroadScaleOf opt.scale g) :
    Evaluator (fun c time loc => evalDipoleComponent libm (realEnv alloc junk junkX year) latN lonN c time loc (code i)
        (code o) opt)
      (fun c N => GoodSets c.items opt int N)
      (fun c N t x v => IsDipoleVal alloc latN lonN c.items opt int N g i o t x v)
      (fun _ lead => lead.length ≤ 15) where
  unique := by
    rintro c N t x v w hc ⟨d, u, a, h1, h2, h3, rfl⟩ ⟨d', u', a', h1', h2', h3', rfl⟩
    rw [h1] at h1'
    cases h1'
    cases isVal_unique hc h2 h2'
    rw [h3] at h3'
    cases h3'
    rfl
  fresh := fun n data => by simp
  ok := by
    intro c N hc time loc lt lead T τ P ht hT hl hx hl15 hp
    obtain ⟨y, W, y1, y2, y3⟩ := dipole_unscaled alloc ha junk hj junkX hjX year latN lonN opt int i o c N hc time loc lt lead
      T τ P ht hT hl hx hl15 hp
    refine ⟨((indices lead).map (fun idx => xyz (scaledBy (W idx) g))).flatten, ?_, ?_, fun idx hi => ?_⟩
    · unfold evalDipoleComponent scaleNd
      have hn : y.arr.dim.getLastD 0 = 3 := by rw [y2.dim]; simp
      have hs : checkScale opt.scale 3 = .ok () := by
        rcases hg with (⟨h, -⟩ | ⟨s, h, -⟩ | ⟨x, y, z, h, -⟩) | ⟨s, h, -⟩ <;> rw [h] <;> rfl
      simp only [y1, except_ok_bind, hn]
      rw [reads_points y2]
      simp only [orMemory, except_ok_bind]
      rw [hs]
      have hr := nd_rows y2
      rw [hn] at hr
      rw [hr]
      rw [nd_mapM (f := scaleRow opt.scale) (g := fun idx => xyz (W idx)) (h := fun idx => xyz (scaledBy (W idx) g))
        (indices lead) (fun idx _ => scaleRow_of hg _)]
      rfl
    · rw [flatten_length 3 _ (by
        intro b hb
        obtain ⟨x, -, rfl⟩ := List.mem_map.mp hb
        rfl), List.length_map, indices_length]
      simp
    · obtain ⟨d, u, u1, u2, u3⟩ := y3 idx hi
      exact ⟨scaledBy (W idx) g, ⟨d, u, W idx, u1, u2, u3, rfl⟩, nd_flat lead _ idx hi⟩

/-- Scales of another number of items are refused when a component is evaluated (also for arrays without points). -/
theorem C77_scale_refused (alloc : Nat → Mem ℝ) (ha : ∀ N, MemOk (alloc N) N) (junk : Nat → List ℝ)
    (hj : ∀ n, (junk n).length = n) (junkX : Nat → List (X ℝ)) (hjX : ∀ n, (junkX n).length = n) (year : Int)
    (latN lonN : ℝ) (opt : Options ℝ) (int : Bool) (i o : CT) (c : Component ℝ) (N : Nat) (hc : GoodSets c.items opt int N)
    (time : NdArray (X ℝ)) (loc : NdArray ℝ) (lt lead : List Nat) (T : List Nat → X ℝ) (τ : List Nat → ℝ)
    (P : List Nat → V3 ℝ) (ht : ItemsOf time lt T) (hT : ∀ idx, Index lt idx → T idx = .fin (τ idx))
    (hl : lt.length ≤ 15) (hx : VectorsOf loc lead P) (hl15 : lead.length ≤ 15) (hp : lt <+: lead)
    (l : List ℝ) (hs : opt.scale = .vector l) (h1 : l.length ≠ 1) (h3 : l.length ≠ 3) :
    evalDipoleComponent libm (realEnv alloc junk junkX year) latN lonN c time loc (code i) (code o) opt = .error .valueError := by
  obtain ⟨y, W, y1, y2, -⟩ := dipole_unscaled alloc ha junk hj junkX hjX year latN lonN opt int i o c N hc time loc lt lead
    T τ P ht hT hl hx hl15 hp
  have hn : y.arr.dim.getLastD 0 = 3 := by rw [y2.dim]; simp
  unfold evalDipoleComponent scaleNd
  simp only [y1, except_ok_bind, hn]
  rw [reads_points y2, hs]
  simp only [orMemory, except_ok_bind, checkScale]
  rw [if_pos ⟨h1, h3⟩]
  rfl

/-! ### The field -/

/-- The rotation (of row vectors) to the frame of the dipole: it takes the direction of the pole to the z axis and the
Earth's axis to the half plane of the zero (or 180°) dipole longitude. -/
structure ToDipoleFrame (latN lonN : ℝ) (m : M3 ℝ) : Prop where
  rigid : ∀ v w, inner3 (dot v m) (dot w m) = inner3 v w
  proper : det3 m = 1
  pole : dot (direction latN lonN) m = ⟨0, 0, 1⟩
  meridian : (dot ⟨0, 0, 1⟩ m).y = 0
  side : (dot ⟨0, 0, 1⟩ m).x = -Real.cos (latN * (Real.pi / 180))

/-- `v` is the field, at the position `x`, of the coefficients `table` given in the frame rotated by `m`, multiplied by
the scale: minus the gradient of the potential at the rotated position, in the coordinates of the output. -/
def DipoleField (m : M3 ℝ) (table : List ((Int × Int) × (ℝ → Prop))) (int : Bool) (N : Nat) (g : V3 ℝ) (i o : CT)
    (x v : V3 ℝ) : Prop :=
  ∃ rows, TableOf N table rows ∧ ∃ (U : V3 ℝ → ℝ) (c r w : V3 ℝ),
    (∀ p s, p ≠ ⟨0, 0, 0⟩ → convert libm (dot p m) 2 1 = some s → U p = potentialAt int N rows s) ∧
    convert libm x (code i) 2 = some c ∧ convert libm x (code i) (code o) = some r ∧
    v = ⟨-(w.x * g.x), -(w.y * g.y), -(w.z * g.z)⟩ ∧ HasGrad U (toCart o r w) c

theorem frame_ok (latN lonN : ℝ) : ToDipoleFrame latN lonN (dipoleMatrix libm latN lonN) :=
  ⟨fun v w => (C35_rotation latN lonN v w).1, (C35_rotation latN lonN ⟨0, 0, 0⟩ ⟨0, 0, 0⟩).2.1,
    (C35_rotation latN lonN ⟨0, 0, 0⟩ ⟨0, 0, 0⟩).2.2, (C35_meridian latN lonN).1, (C35_meridian latN lonN).2⟩

theorem rotated_ne {m : M3 ℝ} (h : ∀ v w, inner3 (dot v m) (dot w m) = inner3 v w) {p : V3 ℝ} (hp : 0 < inner3 p p) :
    dot p m ≠ ⟨0, 0, 0⟩ := by
  intro e
  rw [← h, e] at hp
  simp [inner3] at hp

theorem toCart_neg (o : CT) (r w : V3 ℝ) :
    toCart o r ⟨-w.x, -w.y, -w.z⟩ = ⟨-(toCart o r w).x, -(toCart o r w).y, -(toCart o r w).z⟩ := by
  cases o
  · refine V3.ext' ?_ ?_ ?_ <;> simp only [toCart, vrotSph2cart, rot2d] <;> ring
  · refine V3.ext' ?_ ?_ ?_ <;> simp only [toCart, vrotSph2cart, rot2d] <;> ring
  · rfl

/-- The field from the evaluation in the dipole frame with the coefficients of any table. -/
theorem dipole_field {alloc : Nat → Mem ℝ} (ha : ∀ N, MemOk (alloc N) N) {latN lonN : ℝ}
    {table : List ((Int × Int) × (ℝ → Prop))} {int : Bool} {N : Nat} (hN : 1 ≤ N) {g : V3 ℝ} {i o : CT} {x d u w : V3 ℝ}
    {rows : List (ℝ × ℝ)} {uu : Option ℝ × Option (V3 ℝ)} (h1 : convertToDipole libm x latN lonN (code i) = some d)
    (ht : TableOf N table rows)
    (hs : shevalR int N .spherical .spherical 2 1 (opposite ⟨1, 1, 1⟩) (alloc N) [(d, rows)] = some [uu])
    (hu : uu.2 = some u) (h3 : rotateVectorsFromDipole libm u latN lonN d x (code i) (code o) = some w) (hx : Pos i x)
    (hpole : ∀ s, convertToDipole libm x latN lonN (code i) = some s →
      1 / 10 ^ 10 ≤ |Real.cos (s.x * (Real.pi / 180))| ∨ Real.cos (s.x * (Real.pi / 180)) = 0) :
    DipoleField (dipoleMatrix libm latN lonN) table int N g i o x (scaledBy w g) := by
  have m1 := (frame_ok latN lonN).rigid
  have hpole := hpole d h1
  rw [toDipole_eq] at h1
  have h1 := Option.some.inj h1
  have hi := cart_of_pos hx
  have hne := rotated_ne m1 hi
  set p := dot (getFconv libm i .cartesian x) (dipoleMatrix libm latN lonN) with hp
  have hpos : Pos .cartesian p := hne
  obtain ⟨k1, k2⟩ := sph_ok hpos
  have hd : Pos .spherical d := by
    rw [← h1]
    exact ⟨k1, k2⟩
  have hlen : CoefOk rows N := by
    have := ht.len
    have h4 := ncoef_two N
    unfold CoefOk
    rw [this]
    unfold ncoef at h4
    omega
  obtain ⟨u', w0, e, f1, f2, f3, -⟩ := sheval_solidGrad int N hN .spherical .spherical 2 (.inl rfl) 1
    (opposite ⟨1, 1, 1⟩) (alloc N) (ha N) d hd rows hlen
  rw [f1] at hs
  have hs := (List.cons.inj (Option.some.inj hs)).1
  rw [← hs] at hu
  have hu := Option.some.inj hu
  have hcart : getFconv libm .spherical .cartesian d = p := by
    rw [← h1]
    exact sph_cart hpos
  rw [hcart, f3 hpole] at f2
  obtain ⟨w', g1, g2⟩ := rotate_back i o latN lonN d x u
  rw [h3] at g1
  cases g1
  refine ⟨rows, ht, fun q => solid int 6371.2 N (coefG rows) (coefH rows) (dot q (dipoleMatrix libm latN lonN)), _, _,
    ⟨-w.x, -w.y, -w.z⟩, ?_, convert_code i .cartesian x, convert_code i o x, ?_, ?_⟩
  · intro q s hq hs
    have hq' : Pos .cartesian (dot q (dipoleMatrix libm latN lonN)) := rotated_ne m1 (inner_pos hq)
    obtain ⟨l1, l2⟩ := sph_ok hq'
    have hs := Option.some.inj ((convert_code .cartesian .spherical _).symm.trans hs)
    rw [← hs]
    unfold potentialAt
    rw [potential_solid int (by norm_num) l2, ← dg2rad_mul, ← dg2rad_mul, place_sph, sph_cart hq']
    rfl
  · simp [scaledBy]
  · refine HasGrad.rotate m1 ?_
    rw [toCart_neg]
    have e1 : dot ⟨-(toCart o (getFconv libm i o x) w).x, -(toCart o (getFconv libm i o x) w).y,
        -(toCart o (getFconv libm i o x) w).z⟩ (dipoleMatrix libm latN lonN) =
        solidGrad int 6371.2 N (coefG rows) (coefH rows) p := by
      have e2 : ∀ a : V3 ℝ, dot ⟨-a.x, -a.y, -a.z⟩ (dipoleMatrix libm latN lonN) =
          ⟨-(dot a (dipoleMatrix libm latN lonN)).x, -(dot a (dipoleMatrix libm latN lonN)).y,
            -(dot a (dipoleMatrix libm latN lonN)).z⟩ := by
        intro a
        refine V3.ext' ?_ ?_ ?_ <;> simp only [dot] <;> ring
      rw [e2, g2, ← hu]
      have e3 : ∀ F : V3 ℝ, ∀ G, vadd F (vsmul 0 G) = F := by
        intro F G
        simp [vadd, vsmul]
      rw [e3] at f2
      have e4 := toCart_neg .spherical d w0
      rw [show getFconv libm .spherical .spherical d = d from rfl] at f2
      rw [f2] at e4
      have e5 : (⟨w0.x * (opposite ⟨1, 1, 1⟩).x, w0.y * (opposite ⟨1, 1, 1⟩).y, w0.z * (opposite ⟨1, 1, 1⟩).z⟩ : V3 ℝ) =
          ⟨-w0.x, -w0.y, -w0.z⟩ := by simp [opposite]
      rw [e5]
      have e6 : vrotSph2cart libm ⟨-w0.x, -w0.y, -w0.z⟩ d.x d.y = toCart .spherical d ⟨-w0.x, -w0.y, -w0.z⟩ := rfl
      rw [e6, e4]
      simp
    rw [e1]
    exact hasGrad_solid int _ N _ _ (inner_pos hne)

theorem isDipoleVal_field {alloc : Nat → Mem ℝ} (ha : ∀ N, MemOk (alloc N) N) {latN lonN : ℝ} {sets : List (Sparse ℝ)}
    {opt : Options ℝ} {int : Bool} {N : Nat} (hc : GoodSets sets opt int N) {g : V3 ℝ} {i o : CT} {t : ℝ} {x v : V3 ℝ}
    (hv : IsDipoleVal alloc latN lonN sets opt int N g i o t x v) (hx : Pos i x)
    (hpole : ∀ s, convertToDipole libm x latN lonN (code i) = some s →
      1 / 10 ^ 10 ≤ |Real.cos (s.x * (Real.pi / 180))| ∨ Real.cos (s.x * (Real.pi / 180)) = 0) :
    DipoleField (dipoleMatrix libm latN lonN) (entriesAt opt sets t) int N g i o x v := by
  obtain ⟨d, u, w, h1, ⟨rows, uu, ht, hs, hu⟩, h3, rfl⟩ := hv
  exact dipole_field ha hc.one h1 ht hs hu h3 hx hpole

/-! ### Models of nested coefficients -/

theorem tree_with {ev : Component ℝ → NdArray (X ℝ) → NdArray ℝ → Except Err (List ℝ)} {Good : List (Sparse ℝ) → Nat → Prop}
    {Val : List (Sparse ℝ) → Nat → ℝ → V3 ℝ → V3 ℝ → Prop} {Loc : NdArray ℝ → List Nat → Prop}
    (H : Evaluator ev (fun c => Good c.items) (fun c => Val c.items) Loc) (tree : Tree (Ext ℝ) (Sparse ℝ))
    (hgood : ∀ sets, Selects tree sets → ∃ N, Good sets N)
    (time : NdArray (X ℝ)) (loc : NdArray ℝ) (lt lead : List Nat) (T : List Nat → X ℝ) (P : List Nat → V3 ℝ)
    (ht : ItemsOf time lt T) (hx : VectorsOf loc lead P) (hp : lt <+: lead)
    (hreg : lt = [] → Regular tree) (hord : lt ≠ [] → Ordered tree)
    (hT : ∀ idx, Index lt idx → T idx ≠ .ninf ∧ T idx ≠ .pinf) (h1 : lt = [] → Loc loc lead) :
    ∃ out, (componentsOf tree).map (fun parts => evalModelWith ev parts time loc) = some (.ok (lead ++ [3], out)) ∧
      out.length = (lead ++ [3]).prod ∧
      ∀ idx, Index lead idx →
        (T (idx.take lt.length) = .nan → ∀ k : Fin 3, out[rank (lead ++ [3]) (idx ++ [k.val])]? = some none) ∧
        (∀ t, T (idx.take lt.length) = .fin t → (∀ p ∈ spans tree, p.1 ≠ at_ t ∧ p.2 ≠ at_ t) →
          ((∀ sets, ¬ Active (fun x => x ≤ at_ t) tree sets) →
            ∀ k : Fin 3, out[rank (lead ++ [3]) (idx ++ [k.val])]? = some none) ∧
          ∀ sets, Active (fun x => x ≤ at_ t) tree sets →
            ∃ N v, Good sets N ∧ Val sets N t (P idx) v ∧
              ∀ k : Fin 3, out[rank (lead ++ [3]) (idx ++ [k.val])]? = some (some (comp v k))) ∧
        ∀ t, T (idx.take lt.length) = .fin t →
          ((∀ k : Fin 3, out[rank (lead ++ [3]) (idx ++ [k.val])]? = some none) ∧
            (NoInstants tree → ∀ sets, ¬ ValidAt (at_ t) tree sets)) ∨
          ∃ sets, ValidAt (at_ t) tree sets ∧ ∃ N v, Good sets N ∧ Val sets N t (P idx) v ∧
              ∀ k : Fin 3, out[rank (lead ++ [3]) (idx ++ [k.val])]? = some (some (comp v k)) := by
  obtain ⟨parts, hparts, hpe, hsel⟩ := C75_components tree
  have hnone : ∀ (c : Component ℝ) (x : X ℝ), c.isValid x = true → x ≠ .nan := by
    intro c x hv e
    rw [C74_valid, e] at hv
    obtain ⟨a, b, y, -, -, hy, -, -⟩ := hv
    cases hy
  obtain ⟨out, e1, e2, e3⟩ := evalModelWith_ok H parts (fun c hc => hgood _ (hsel c hc)) time loc lt lead T P ht hx hp (by
      intro idx hidx c hc hv
      match hti : T idx with
      | .nan => exact absurd hti (hnone c _ hv)
      | .ninf => exact absurd hti (hT idx hidx).1
      | .pinf => exact absurd hti (hT idx hidx).2
      | .fin t => exact ⟨t, rfl⟩) h1
  refine ⟨out, by rw [hparts]; exact congrArg some e1, e2, fun idx hidx => ⟨fun hn => ?_, fun t hti hends => ?_, fun t hti => ?_⟩⟩
  · rcases e3 idx hidx with ⟨-, a⟩ | ⟨c, N, t, v, ⟨pre, post, -, hv, -⟩, -⟩
    · exact a
    · exact absurd hn (hnone c _ hv)
  · obtain ⟨a1, a2⟩ := active_part tree (lt = []) t hreg hord hends
    rw [← hpe] at a1 a2
    rcases e3 idx hidx with ⟨a, b⟩ | ⟨c, N, t', v, hw, hN, ht', hv, hk⟩
    · refine ⟨fun _ => b, fun sets hs => ?_⟩
      obtain ⟨c, hc, rfl⟩ := a1 sets hs
      rw [← hti, winner_iff] at hc
      obtain ⟨pre, post, h, hv, -⟩ := hc
      rw [a c (by rw [h]; simp)] at hv
      cases hv
    · rw [hti] at ht'
      cases ht'
      refine ⟨fun hn => ?_, fun sets hs => ?_⟩
      · obtain ⟨pre, post, h, hv', -⟩ := hw
        rw [C74_valid, hti] at hv'
        exact absurd hv' (a2 hn c (by rw [h]; simp))
      · obtain ⟨d, hd, rfl⟩ := a1 sets hs
        rw [← hti, winner_iff] at hd
        rw [winner_unique hd hw]
        exact ⟨N, v, hN, hv, hk⟩
  · have hr : Regular tree := by
      by_cases h : lt = []
      · exact hreg h
      · exact ordered_regular (hord h)
    rcases e3 idx hidx with ⟨a, b⟩ | ⟨c, N, t', v, hw, hN, ht', hv, hk⟩ <;>
      rcases valid_part tree (lt = []) t hr with ⟨d, hd, hva⟩ | ⟨hn, hf⟩
    · rw [← hpe, ← hti, winner_iff] at hd
      obtain ⟨pre, post, h, hv, -⟩ := hd
      rw [a d (by rw [h]; simp)] at hv
      cases hv
    · exact .inl ⟨b, hf⟩
    · rw [hti] at ht'
      cases ht'
      rw [← hpe, ← hti, winner_iff] at hd
      rw [winner_unique hd hw] at hva
      exact .inr ⟨_, hva, N, v, hN, hv, hk⟩
    · obtain ⟨pre, post, h, hv', -⟩ := hw
      rw [C74_valid, hti] at hv'
      rw [← hpe] at hn
      exact absurd hv' (hn c (by rw [h]; simp))

/-- C77. `eval` of the model of coefficients given in the frame of a dipole, on arrays.  There is one rotation, which takes
the direction of the given pole to the z axis and the Earth's axis to the plane of the zero dipole longitude, such that,
at each point whose time has active coefficient sets, the items of the result are minus the gradient of the potential
of the coefficients of these sets at the rotated position, in the coordinates of the output, times the scale.  At
points whose time has no active sets, or is NaN, the items are NaN.  At the ends of the validity intervals the sets taken
are all valid at that time, ends included, or there are none and the items are NaN.

Partial: the nested objects, the times and the selections of sets are as in C75; arrays of up to 15 dimensions for a
single time; degree 1 and more, not next to the poles of the dipole (but at the poles); exact arithmetic. -/
theorem C77_eval_partial (latN lonN : ℝ) : ∃ m : M3 ℝ, ToDipoleFrame latN lonN m ∧
    ∀ (alloc : Nat → Mem ℝ), (∀ N, MemOk (alloc N) N) → ∀ (junk : Nat → List ℝ), (∀ n, (junk n).length = n) →
    ∀ (junkX : Nat → List (X ℝ)), (∀ n, (junkX n).length = n) → ∀ (year : Int)
      (tree : Tree (Ext ℝ) (Sparse ℝ)) (opt : Options ℝ) (int : Bool),
      (∀ sets, Selects tree sets → ∃ N, GoodSets sets opt int N) →
      ∀ (time : NdArray (X ℝ)) (loc : NdArray ℝ) (lt lead : List Nat) (T : List Nat → X ℝ) (P : List Nat → V3 ℝ),
      ItemsOf time lt T → VectorsOf loc lead P → lt <+: lead →
      (lt = [] → Regular tree) → (lt ≠ [] → Ordered tree) →
      (∀ idx, Index lt idx → T idx ≠ .ninf ∧ T idx ≠ .pinf) →
      (lt = [] → lead.length ≤ 15) → ∀ (i o : CT) (g : V3 ℝ), BroadScaleOf opt.scale g →
    ∃ out, evalDipole libm (realEnv alloc junk junkX year) latN lonN tree time loc (code i) (code o) opt =
        some (.ok (lead ++ [3], out)) ∧
      out.length = (lead ++ [3]).prod ∧
      ∀ idx, Index lead idx →
        (T (idx.take lt.length) = .nan → ∀ k : Fin 3, out[rank (lead ++ [3]) (idx ++ [k.val])]? = some none) ∧
        (∀ t, T (idx.take lt.length) = .fin t → (∀ p ∈ spans tree, p.1 ≠ at_ t ∧ p.2 ≠ at_ t) →
          ((∀ sets, ¬ Active (fun x => x ≤ at_ t) tree sets) →
            ∀ k : Fin 3, out[rank (lead ++ [3]) (idx ++ [k.val])]? = some none) ∧
          ∀ sets, Active (fun x => x ≤ at_ t) tree sets →
            ∃ v : V3 ℝ, (∀ k : Fin 3, out[rank (lead ++ [3]) (idx ++ [k.val])]? = some (some (comp v k))) ∧
              (Pos i (P idx) → (∀ c s, convert libm (P idx) (code i) 2 = some c → convert libm (dot c m) 2 1 = some s →
                  1 / 10 ^ 10 ≤ |Real.cos (s.x * (Real.pi / 180))| ∨ Real.cos (s.x * (Real.pi / 180)) = 0) →
                ∃ N, MaxDegree (keptIndices opt sets) N ∧ DipoleField m (entriesAt opt sets t) int N g i o (P idx) v)) ∧
        ∀ t, T (idx.take lt.length) = .fin t →
          ((∀ k : Fin 3, out[rank (lead ++ [3]) (idx ++ [k.val])]? = some none) ∧
            (NoInstants tree → ∀ sets, ¬ ValidAt (at_ t) tree sets)) ∨
          ∃ sets, ValidAt (at_ t) tree sets ∧
            ∃ v : V3 ℝ, (∀ k : Fin 3, out[rank (lead ++ [3]) (idx ++ [k.val])]? = some (some (comp v k))) ∧
              (Pos i (P idx) → (∀ c s, convert libm (P idx) (code i) 2 = some c → convert libm (dot c m) 2 1 = some s →
                  1 / 10 ^ 10 ≤ |Real.cos (s.x * (Real.pi / 180))| ∨ Real.cos (s.x * (Real.pi / 180)) = 0) →
                ∃ N, MaxDegree (keptIndices opt sets) N ∧ DipoleField m (entriesAt opt sets t) int N g i o (P idx) v) := by
  refine ⟨dipoleMatrix libm latN lonN, frame_ok latN lonN, ?_⟩
  intro alloc ha junk hj junkX hjX year tree opt int hgood time loc lt lead T P ht hx hp hreg hord hT h1 i o g hg
  obtain ⟨out, e1, e2, e3⟩ := tree_with (Good := fun sets N => GoodSets sets opt int N)
    (Val := fun sets N t x v => IsDipoleVal alloc latN lonN sets opt int N g i o t x v)
    (dipole_evaluator alloc ha junk hj junkX hjX year latN lonN opt int i o g hg) tree hgood time loc lt lead T P ht hx hp
    hreg hord hT h1
  have key : ∀ sets N t idx v, GoodSets sets opt int N → IsDipoleVal alloc latN lonN sets opt int N g i o t (P idx) v →
      Pos i (P idx) → (∀ c s, convert libm (P idx) (code i) 2 = some c →
        convert libm (dot c (dipoleMatrix libm latN lonN)) 2 1 = some s →
        1 / 10 ^ 10 ≤ |Real.cos (s.x * (Real.pi / 180))| ∨ Real.cos (s.x * (Real.pi / 180)) = 0) →
      ∃ N, MaxDegree (keptIndices opt sets) N ∧
        DipoleField (dipoleMatrix libm latN lonN) (entriesAt opt sets t) int N g i o (P idx) v := by
    intro sets N t idx v hN hv hpos hpole
    refine ⟨N, hN.degree, isDipoleVal_field ha hN hv hpos (fun s hs => ?_)⟩
    unfold convertToDipole at hs
    obtain ⟨c, hc1, hc2⟩ := Option.bind_eq_some_iff.mp hs
    exact hpole c s hc1 hc2
  refine ⟨out, e1, e2, fun idx hidx => ⟨(e3 idx hidx).1, fun t hti hends => ?_, fun t hti => ?_⟩⟩
  · obtain ⟨a, b⟩ := (e3 idx hidx).2.1 t hti hends
    refine ⟨a, fun sets hs => ?_⟩
    obtain ⟨N, v, hN, hv, hk⟩ := b sets hs
    exact ⟨v, hk, key sets N t idx v hN hv⟩
  · rcases (e3 idx hidx).2.2 t hti with h | ⟨sets, hs, N, v, hN, hv, hk⟩
    · exact .inl h
    · exact .inr ⟨sets, hs, v, hk, key sets N t idx v hN hv⟩

-- a pole on the equator: the conditions next to the poles of the dipole at the pole of the Earth, which has the dipole
-- latitude zero
example (m : M3 ℝ) (hm : ToDipoleFrame 0 0 m) : Pos .cartesian ⟨0, 0, 7000⟩ ∧
    ∀ c s, convert libm ⟨0, 0, 7000⟩ (code .cartesian) 2 = some c → convert libm (dot c m) 2 1 = some s →
      1 / 10 ^ 10 ≤ |Real.cos (s.x * (Real.pi / 180))| ∨ Real.cos (s.x * (Real.pi / 180)) = 0 := by
  refine ⟨by simp [Pos], fun c s hc hs => .inl ?_⟩
  cases (convert_code .cartesian .cartesian _).symm.trans hc
  cases (convert_code .cartesian .spherical _).symm.trans hs
  have h1 := hm.rigid ⟨0, 0, 1⟩ ⟨0, 0, 1⟩
  have h2 := hm.meridian
  have h3 := hm.side
  simp only [zero_mul, Real.cos_zero] at h3
  have h4 : (dot ⟨0, 0, 1⟩ m).z = 0 := by
    simp only [inner3, h2, h3] at h1
    nlinarith
  have e : dot ⟨0, 0, 7000⟩ m = ⟨-7000, 0, 0⟩ := by
    simp only [dot, zero_mul, one_mul, zero_add, V3.mk.injEq] at h2 h3 h4 ⊢
    refine ⟨?_, ?_, ?_⟩ <;> linarith
  show 1 / 10 ^ 10 ≤ |Real.cos ((convCartSph libm (dot ⟨0, 0, 7000⟩ m)).x * (Real.pi / 180))|
  rw [e]
  have : (convCartSph libm ⟨-7000, 0, 0⟩ : V3 ℝ).x = 0 := by
    simp [convCartSph, cart2sph, libm]
  rw [this]
  norm_num

/-- Exact trigonometric functions of multiples of 90 degrees, in degrees. -/
def quarters : Libm ℚ where
  pi := 180
  sin x := if x = 90 then 1 else if x = -90 then -1 else 0
  cos x := if x = 0 then 1 else if x = 180 ∨ x = -180 then -1 else 0
  asin x := if x = 1 then 90 else if x = -1 then -90 else 0
  sqrt x := if x = 64 then 8 else if x = 0 then 0 else 1
  fabs x := |x|
  atan2 y x := if x = 0 ∧ 0 < y then 90 else if x = 0 ∧ y < 0 then -90 else if x < 0 then 180 else 0
  pow x _ := x
  copysign x _ := x

-- the pole on the equator at the longitude 90°: points on the axes (x, z and y) at the days 700, 1001 and 250;
-- the gradient is made of the coefficient (1, 0) plus the dipole latitude, the dipole longitude, and 7; scale 2
example : (match evalDipole (K := ℚ) (St := Unit) quarters
      ⟨fun c _ s v rows => some (s, none, some ⟨c.scaleGradient.x * ((rows[1]?.map Prod.fst).getD 0 + v.x),
        c.scaleGradient.y * v.y, c.scaleGradient.z * 7⟩), fun _ => (),
        fun n => List.replicate n 0, fun n => List.replicate n (.fin 0), 0⟩ 0 90
      (.composed
          [.sparse (((0 : ℚ) : WithTop ℚ) : Ext ℚ) (((500 : ℚ) : WithTop ℚ) : Ext ℚ)
            ⟨⟨[.fin 0, .fin 500], [((1, 0), [.fin 1, .fin 2])], .c1⟩, false, true⟩,
           .sparse (((500 : ℚ) : WithTop ℚ) : Ext ℚ) (((1000 : ℚ) : WithTop ℚ) : Ext ℚ)
            ⟨⟨[.fin 0, .fin 1000], [((1, 0), [.fin 0, .fin 1000])], .c1⟩, false, true⟩])
      (newArray [3] [.fin 700, .fin 1001, .fin 250])
      (newArray [3, 3] [8, 0, 0, 0, 0, 8, 0, 8, 0]) 2 2 ⟨-1, -1, .vector [2]⟩ with
    | some (.ok (shape, items)) => shape == [3, 3] && items ==
        [some (-14), some (-1400), some (-180), none, none, none, some 0, some (-14), some (-183)]
    | _ => false) = true := by
  decide +kernel

end Verif.Props
