/-
Property C49 for the coordinate conversion, the rotations and the series evaluation of
arrays.
-/
import Verif.Props.Arrays

set_option linter.unusedSectionVars false

namespace Verif.Props

open Verif.Geo Verif.Spec Verif.ShPoint Verif.FullEval Verif.Arr Verif.Buf

/-- The vector read by a leaf, with any strides. -/
theorem read_v {A : Type} {x : NdArray A} {lead : List Nat} {X : List Nat → V3 A} (hx : VectorsOf x lead X)
    {idx : List Nat} (h : Index lead idx) : readV x.mem (at' (some 0) x.arr idx) = some (X idx) := by
  obtain ⟨g1, g2, g3⟩ := hx.get _ h
  have hl := index_length h
  have hd : idx.take (x.arr.dim.length - 0) = idx := by
    rw [List.take_of_length_le]
    rw [hx.dim]
    simp
    omega
  have hsl : x.arr.stride.length = lead.length + 1 := by rw [hx.ndim, hx.dim]; simp
  obtain ⟨s, t, hs⟩ : ∃ s t, x.arr.stride = s ++ [t] := by
    rw [← List.dropLast_append_getLast (l := x.arr.stride) (by intro h0; rw [h0] at hsl; simp at hsl)]
    exact ⟨_, _, rfl⟩
  have hsl' : s.length = lead.length := by rw [hs] at hsl; simpa using hsl
  unfold elem at g1 g2 g3
  rw [← offset_eq, hs, offset_append _ _ _ _ (by omega)] at g1 g2 g3
  simp only [offset, Nat.cast_zero, zero_mul, add_zero, Nat.cast_one, Nat.cast_ofNat] at g1 g2 g3
  have hoff : offset idx (s ++ [t]) = offset idx s := by
    have := offset_append idx s [] [t] (by omega)
    simpa [offset_nil] using this
  unfold readV
  simp only [at', hd, sub]
  rw [hs, List.drop_append_of_le_length (by omega), List.drop_of_length_le (by omega), hoff]
  simp only [List.nil_append, List.head?_cons, Option.bind_eq_bind, Option.bind_some, zero_mul, add_zero, g1]
  rw [add_assoc, g2, add_assoc, g3]
  rfl

/-- The vector written by a leaf to a new array. -/
theorem write_v {A : Type} {lead idx : List Nat} (h : Index lead idx) (buf : List A) (v : V3 A) :
    wrV buf (at' (some 0) (contiguous (lead ++ [3])) idx) v =
      wrList buf (sub (contiguous (lead ++ [3])) idx).data [v.x, v.y, v.z] := by
  have hl := index_length h
  have hd : idx.take ((contiguous (lead ++ [3])).dim.length - 0) = idx := by
    rw [List.take_of_length_le]
    simp [contiguous]
    omega
  have hs : ((cstrides (lead ++ [3])).drop idx.length).head? = some 1 := by
    rw [hl]
    clear hd hl h
    induction lead with
    | nil => simp [cstrides]
    | cons n d ih => simpa [cstrides] using ih
  simp only [at', hd]
  unfold wrV
  have hs' : (sub (contiguous (lead ++ [3])) idx).stride.head? = some 1 := hs
  rw [hs']
  simp only [Option.bind_eq_bind, Option.bind_some, zero_mul, add_zero, wrList]
  generalize (sub (contiguous (lead ++ [3])) idx).data = q
  cases wrI buf q v.x with
  | none => rfl
  | some b =>
    simp only [Option.bind_some, one_mul]
    cases wrI b (q + 1) v.y with
    | none => rfl
    | some b =>
      simp only [Option.bind_some]
      rw [show q + 2 * 1 = q + 1 + 1 by ring]
      cases wrI b (q + 1 + 1) v.z <;> rfl

/-- A new array of vectors is filled with the vectors `F idx`. -/
theorem vectors_result {A : Type} {lead : List Nat} {F : List Nat → V3 A} {data : List A}
    (h : ((indices lead).mapM (fun idx => some [(F idx).x, (F idx).y, (F idx).z])).map List.flatten = some data) :
    data.length = (lead ++ [3]).prod ∧ ∀ idx, Index lead idx → ∀ k : Fin 3,
      data[rank (lead ++ [3]) (idx ++ [k.val])]? = some (comp (F idx) k) := by
  obtain ⟨bs, h1, rfl⟩ := Option.map_eq_some_iff.mp h
  have hl : ∀ b ∈ bs, b.length = 3 := by
    intro b hb
    obtain ⟨j, hj, rfl⟩ := List.getElem_of_mem hb
    have := mapM_get h1 j
    rw [List.getElem?_eq_getElem hj] at this
    obtain ⟨idx, -, h2⟩ := Option.bind_eq_some_iff.mp this
    rw [← Option.some.inj h2]
    rfl
  constructor
  · rw [flatten_length 3 bs hl, mapM_length h1, indices_length]
    simp
  · intro idx hi k
    rw [rank_append 3 k.val hi, flatten_get 3 bs _ k.val hl k.isLt, ← mapM_get h1, indices_rank hi]
    fin_cases k <;> rfl

theorem fits_vec {A : Type} {x : NdArray A} {lead : List Nat} {X : List Nat → V3 A} (hx : VectorsOf x lead X) :
    Fits lead (some 0) x.arr := ⟨hx.ndim, .inr ⟨⟨[3], hx.dim.symm⟩, by rw [hx.dim]; simp⟩⟩

theorem fits_out (lead : List Nat) : Fits lead (some 0) (contiguous (lead ++ [3])) :=
  ⟨by simp [contiguous, cstrides_length], .inr ⟨⟨[3], rfl⟩, by simp [contiguous]⟩⟩

theorem checkVectors_ok {A : Type} {x : NdArray A} {lead : List Nat} {X : List Nat → V3 A} (hx : VectorsOf x lead X)
    (h : lead.length ≤ 15) : checkVectors x.arr = some () := by
  unfold checkVectors
  rw [hx.dim]
  simp
  omega

theorem newDims_eq {A : Type} {x : NdArray A} {lead : List Nat} {X : List Nat → V3 A} (hx : VectorsOf x lead X) :
    newDims x.arr.dim = lead ++ [3] := by
  unfold newDims
  rw [hx.dim]
  simp

/-! ### Coordinate conversion -/

/-- **C49** for `convert`: arrays of vectors of any strides (up to 16 dimensions) are
converted vector by vector to a new array. -/
theorem C49_convert (junk : Nat → List ℝ) (hj : ∀ n, (junk n).length = n) (x : NdArray ℝ) (lead : List Nat)
    (hl : lead.length ≤ 15) (X : List Nat → V3 ℝ) (hx : VectorsOf x lead X) (i o : CT) (hio : i ≠ o) :
    ∃ data, convertArr libm junk x (code i) (code o) = .ok (.fresh (lead ++ [3]) data) ∧
      data.length = (lead ++ [3]).prod ∧ ∀ idx, Index lead idx → ∃ v,
        convert libm (X idx) (code i) (code o) = some v ∧
        ∀ k : Fin 3, data[rank (lead ++ [3]) (idx ++ [k.val])]? = some (comp v k) := by
  have hci : checkCT (code i) = some i := by cases i <;> rfl
  have hco : checkCT (code o) = some o := by cases o <;> rfl
  have hne : code i ≠ code o := by
    intro h
    apply hio
    rw [h] at hci
    rw [hci] at hco
    exact Option.some.inj hco
  have hw := walk_mapM (gs := [some 0, some 0]) (core := [3]) (lead := lead)
    (as := [x.arr, contiguous (lead ++ [3])]) (leaf := fun arrs buf => match arrs with
      | [ain, aout] => do
        let v ← readV x.mem ain
        wrV buf aout (getFconv libm i o v)
      | _ => none)
    (.cons (fits_vec hx) (.cons (fits_out lead) .nil)) 3
    (fun idx => some [(getFconv libm i o (X idx)).x, (getFconv libm i o (X idx)).y,
      (getFconv libm i o (X idx)).z]) (fun idx => (sub (contiguous (lead ++ [3])) idx).data)
    (by
      intro idx hi s
      have hi := mem_indices.mp hi
      simp only [List.zipWith_cons_cons, List.zipWith_nil_left, read_v hx hi, Option.bind_eq_bind,
        Option.bind_some, write_v hi])
    (by intro idx v h; rw [← Option.some.inj h]; rfl) (addr_new lead [3])
    (junk (lead ++ [3]).prod) (by rw [hj]; simp)
  obtain ⟨bs, hbs⟩ := mapM_isSome (l := indices lead) (f := fun idx => some [(getFconv libm i o (X idx)).x,
    (getFconv libm i o (X idx)).y, (getFconv libm i o (X idx)).z]) (fun idx _ => ⟨_, rfl⟩)
  have hr := vectors_result (F := fun idx => getFconv libm i o (X idx)) (data := bs.flatten)
    (by rw [hbs]; rfl)
  rw [hbs] at hw
  refine ⟨bs.flatten, ?_, hr.1, fun idx hi => ⟨_, convert_code i o (X idx), hr.2 idx hi⟩⟩
  have hcr : convertRec (getFconv libm i o) x.mem x.arr.dim [x.arr, contiguous (lead ++ [3])]
      (junk (lead ++ [3]).prod) = some bs.flatten := by rw [hx.dim]; exact hw
  unfold convertArr
  simp only [hci, hco, checkVectors_ok hx hl, orValueError, orMemory, hne, if_false, bind, Except.bind,
    newDims_eq hx, hcr]
  rfl

/-- **C49** `convert` refuses what is not an array of vectors. -/
theorem C49_convert_rejects (junk : Nat → List ℝ) (x : NdArray ℝ) (i o : CT)
    (h : x.arr.dim = [] ∨ 16 < x.arr.dim.length ∨ ∃ p n, x.arr.dim = p ++ [n] ∧ n ≠ 3) :
    convertArr libm junk x (code i) (code o) = .error .valueError := by
  have hci : checkCT (code i) = some i := by cases i <;> rfl
  have hco : checkCT (code o) = some o := by cases o <;> rfl
  have hcv : checkVectors x.arr = none := by
    unfold checkVectors
    rcases h with h | h | ⟨p, n, h, hn⟩
    · simp [h]
    · split
      · rfl
      · simp
    · rw [h]
      split
      · rfl
      · split
        · rfl
        · rw [if_pos (by simp [hn])]
  unfold convertArr
  simp only [hci, hco, hcv, orValueError, bind, Except.bind]

/-- **C49** fails for equal coordinate types: the result is the array of the caller itself. -/
theorem C49_convert_alias (junk : Nat → List ℝ) (x : NdArray ℝ) (lead : List Nat) (hl : lead.length ≤ 15)
    (X : List Nat → V3 ℝ) (hx : VectorsOf x lead X) (i : CT) :
    convertArr libm junk x (code i) (code i) = .ok .same := by
  have hci : checkCT (code i) = some i := by cases i <;> rfl
  unfold convertArr
  simp only [hci, checkVectors_ok hx hl, orValueError, if_true, bind, Except.bind]
  rfl

/-- A transposed array of two vectors. -/
example : VectorsOf ⟨cells [1, 4, 2, 5, 3, 6], ⟨0, [2, 3], [1, 2]⟩⟩ [2]
      (fun idx => if idx = [0] then ⟨1, 2, 3⟩ else ⟨4, 5, 6⟩) := by
  refine ⟨rfl, rfl, ?_⟩
  intro idx h
  cases h with
  | cons h1 h2 =>
    cases h2
    rename_i a
    have : a = 0 ∨ a = 1 := by omega
    rcases this with rfl | rfl <;> simp [elem, cells]

/-! ### Rotations -/

/-- Array of numbers with the dimensions `lead`. -/
structure ScalarsOf (a : NdArray ℝ) (lead : List Nat) (S : List Nat → ℝ) : Prop where
  dim : a.arr.dim = lead
  ndim : a.arr.stride.length = a.arr.dim.length
  get : ∀ idx, Index lead idx → elem a.mem a.arr.data a.arr.stride idx = some (S idx)

theorem read_s {a : NdArray ℝ} {la lead : List Nat} {S : List Nat → ℝ} (ha : ScalarsOf a la S)
    (hp : la <+: lead) {idx : List Nat} (h : Index lead idx) :
    a.mem (at' (some 0) a.arr idx).data = some (S (idx.take la.length)) := by
  rw [← ha.get _ (index_take hp h)]
  simp only [at', sub, elem, ← offset_eq, Nat.sub_zero, ha.dim]

theorem fits_scalar {a : NdArray ℝ} {la lead : List Nat} {S : List Nat → ℝ} (ha : ScalarsOf a la S)
    (hp : la <+: lead) : Fits lead (some 0) a.arr :=
  ⟨ha.ndim, .inl ⟨la, [], by rw [ha.dim]; simp, rfl, hp⟩⟩

/-- Angles accepted by the rotations: one for all vectors or one for each vector. -/
def AngleDims (lead la : List Nat) : Prop := la = [] ∨ la = lead

theorem AngleDims.prefix {lead la : List Nat} (h : AngleDims lead la) : la <+: lead := by
  rcases h with rfl | rfl
  · exact List.nil_prefix
  · exact List.prefix_rfl

theorem vrotCheck_ok {A : Type} {x : NdArray A} {a : NdArray ℝ} {lead la : List Nat} {X : List Nat → V3 A} {S : List Nat → ℝ}
    (hx : VectorsOf x lead X) (ha : ScalarsOf a la S) (h : AngleDims lead la) :
    vrotCheck x.arr a.arr = some () := by
  unfold vrotCheck
  rw [hx.dim, ha.dim]
  rcases h with rfl | rfl
  · simp
  · split
    · rw [if_neg (by simp), if_neg]
      simp only [List.any_eq_true, List.mem_range, decide_eq_true_eq, not_exists, not_and, not_not]
      intro d hd
      rw [List.getElem?_append_left (by simpa using hd)]
    · rfl

/-- The angles of another shape are refused. -/
theorem vrotCheck_none {A : Type} {x : NdArray A} {a : NdArray ℝ} {lead la : List Nat} {X : List Nat → V3 A} {S : List Nat → ℝ}
    (hx : VectorsOf x lead X) (ha : ScalarsOf a la S) (h : ¬AngleDims lead la) :
    vrotCheck x.arr a.arr = none := by
  unfold vrotCheck
  rw [hx.dim, ha.dim]
  unfold AngleDims at h
  have h0 : 0 < la.length := List.length_pos_iff.mpr (fun e => h (.inl e))
  rw [if_pos h0]
  by_cases hl : (lead ++ [3]).length ≠ la.length + 1
  · rw [if_pos hl]
  · have hll : lead.length = la.length := by simpa using hl
    rw [if_neg hl, if_pos]
    by_contra hc
    apply h
    right
    simp only [List.any_eq_true, List.mem_range, decide_eq_true_eq, not_exists, not_and, not_not] at hc
    apply List.ext_getElem?
    intro d
    by_cases hd : d < la.length
    · rw [← hc d (by simp; omega), List.getElem?_append_left (by omega)]
    · rw [List.getElem?_eq_none (by omega), List.getElem?_eq_none (by omega)]

/-- The walk of `vrot_sph2geod` with any rotation. -/
theorem vrot1_arr {A : Type} (f : V3 A → ℝ → V3 A) (junk : Nat → List A) (hj : ∀ n, (junk n).length = n) (x : NdArray A)
    (a : NdArray ℝ)
    (lead la : List Nat) (hl : lead.length ≤ 15) (X : List Nat → V3 A) (S : List Nat → ℝ)
    (hx : VectorsOf x lead X) (ha : ScalarsOf a la S) :
    (AngleDims lead la → ∃ data, vrot1Arr f junk x a = .ok (lead ++ [3], data) ∧
      data.length = (lead ++ [3]).prod ∧ ∀ idx, Index lead idx → ∀ k : Fin 3,
        data[rank (lead ++ [3]) (idx ++ [k.val])]? =
          some (comp (f (X idx) (S (idx.take la.length))) k)) ∧
    (¬AngleDims lead la → vrot1Arr f junk x a = .error .valueError) := by
  constructor
  · intro h
    have hw := walk_mapM (gs := [some 0, some 0, some 0]) (core := [3]) (lead := lead)
      (as := [x.arr, a.arr, contiguous (lead ++ [3])]) (leaf := fun arrs buf => match arrs with
        | [ain, alat, aout] => do
          let la ← a.mem alat.data
          let v ← readV x.mem ain
          wrV buf aout (f v la)
        | _ => none)
      (.cons (fits_vec hx) (.cons (fits_scalar ha h.prefix) (.cons (fits_out lead) .nil))) 3
      (fun idx => some [(f (X idx) (S (idx.take la.length))).x,
        (f (X idx) (S (idx.take la.length))).y,
        (f (X idx) (S (idx.take la.length))).z])
      (fun idx => (sub (contiguous (lead ++ [3])) idx).data)
      (by
        intro idx hi s
        have hi := mem_indices.mp hi
        simp only [List.zipWith_cons_cons, List.zipWith_nil_left, read_v hx hi, read_s ha h.prefix hi,
          Option.bind_eq_bind, Option.bind_some, write_v hi])
      (by intro idx v h; rw [← Option.some.inj h]; rfl) (addr_new lead [3])
      (junk (lead ++ [3]).prod) (by rw [hj]; simp)
    obtain ⟨bs, hbs⟩ := mapM_isSome (l := indices lead) (f := fun idx =>
      some [(f (X idx) (S (idx.take la.length))).x,
        (f (X idx) (S (idx.take la.length))).y,
        (f (X idx) (S (idx.take la.length))).z]) (fun idx _ => ⟨_, rfl⟩)
    have hr := vectors_result (F := fun idx => f (X idx) (S (idx.take la.length)))
      (data := bs.flatten) (by rw [hbs]; rfl)
    rw [hbs] at hw
    refine ⟨bs.flatten, ?_, hr.1, hr.2⟩
    have hcr : vrot1Rec f x.mem a.mem x.arr.dim [x.arr, a.arr, contiguous (lead ++ [3])]
        (junk (lead ++ [3]).prod) = some bs.flatten := by rw [hx.dim]; exact hw
    unfold vrot1Arr
    simp only [checkVectors_ok hx hl, vrotCheck_ok hx ha h, orValueError, orMemory, bind, Except.bind,
      newDims_eq hx, hcr]
    rfl
  · intro h
    unfold vrot1Arr
    simp only [checkVectors_ok hx hl, vrotCheck_none hx ha h, orValueError, bind, Except.bind]

/-- **C49** for `vrot_sph2geod`. -/
theorem C49_vrot_sph2geod (junk : Nat → List ℝ) (hj : ∀ n, (junk n).length = n) (x a : NdArray ℝ)
    (lead la : List Nat) (hl : lead.length ≤ 15) (X : List Nat → V3 ℝ) (S : List Nat → ℝ)
    (hx : VectorsOf x lead X) (ha : ScalarsOf a la S) :
    (AngleDims lead la → ∃ data, vrotSph2geodArr libm junk x a = .ok (lead ++ [3], data) ∧
      data.length = (lead ++ [3]).prod ∧ ∀ idx, Index lead idx → ∀ k : Fin 3,
        data[rank (lead ++ [3]) (idx ++ [k.val])]? =
          some (comp (vrotSph2geod libm (X idx) (S (idx.take la.length))) k)) ∧
    (¬AngleDims lead la → vrotSph2geodArr libm junk x a = .error .valueError) :=
  vrot1_arr (vrotSph2geod libm) junk hj x a lead la hl X S hx ha

/-- **C49** for `vrot_sph2cart` (`f = vrotSph2cart libm`) and `vrot_cart2sph`
(`f = vrotCart2sph libm`). -/
theorem C49_vrot {A : Type} (f : V3 A → ℝ → ℝ → V3 A) (junk : Nat → List A) (hj : ∀ n, (junk n).length = n)
    (x : NdArray A) (a o : NdArray ℝ) (lead la lo : List Nat) (hl : lead.length ≤ 15) (X : List Nat → V3 A)
    (S T : List Nat → ℝ) (hx : VectorsOf x lead X) (ha : ScalarsOf a la S) (ho : ScalarsOf o lo T) :
    (AngleDims lead la → AngleDims lead lo → ∃ data, vrot2Arr f junk x a o = .ok (lead ++ [3], data) ∧
      data.length = (lead ++ [3]).prod ∧ ∀ idx, Index lead idx → ∀ k : Fin 3,
        data[rank (lead ++ [3]) (idx ++ [k.val])]? =
          some (comp (f (X idx) (S (idx.take la.length)) (T (idx.take lo.length))) k)) ∧
    (¬(AngleDims lead la ∧ AngleDims lead lo) → vrot2Arr f junk x a o = .error .valueError) := by
  constructor
  · intro h h'
    set F : List Nat → V3 A := fun idx => f (X idx) (S (idx.take la.length)) (T (idx.take lo.length)) with hF
    have hw := walk_mapM (gs := [some 0, some 0, some 0, some 0]) (core := [3]) (lead := lead)
      (as := [x.arr, a.arr, o.arr, contiguous (lead ++ [3])]) (leaf := fun arrs buf => match arrs with
        | [ain, alat, alon, aout] => do
          let la ← a.mem alat.data
          let lo ← o.mem alon.data
          let v ← readV x.mem ain
          wrV buf aout (f v la lo)
        | _ => none)
      (.cons (fits_vec hx) (.cons (fits_scalar ha h.prefix) (.cons (fits_scalar ho h'.prefix)
        (.cons (fits_out lead) .nil)))) 3
      (fun idx => some [(F idx).x, (F idx).y, (F idx).z])
      (fun idx => (sub (contiguous (lead ++ [3])) idx).data)
      (by
        intro idx hi s
        have hi := mem_indices.mp hi
        simp only [List.zipWith_cons_cons, List.zipWith_nil_left, read_v hx hi, read_s ha h.prefix hi,
          read_s ho h'.prefix hi, Option.bind_eq_bind, Option.bind_some, write_v hi, hF])
      (by intro idx v h; rw [← Option.some.inj h]; rfl) (addr_new lead [3])
      (junk (lead ++ [3]).prod) (by rw [hj]; simp)
    obtain ⟨bs, hbs⟩ := mapM_isSome (l := indices lead) (f := fun idx =>
      some [(F idx).x, (F idx).y, (F idx).z]) (fun idx _ => ⟨_, rfl⟩)
    have hr := vectors_result (F := F) (data := bs.flatten) (by rw [hbs]; rfl)
    rw [hbs] at hw
    refine ⟨bs.flatten, ?_, hr.1, hr.2⟩
    have hcr : vrot2Rec f x.mem a.mem o.mem x.arr.dim [x.arr, a.arr, o.arr, contiguous (lead ++ [3])]
        (junk (lead ++ [3]).prod) = some bs.flatten := by rw [hx.dim]; exact hw
    unfold vrot2Arr
    simp only [checkVectors_ok hx hl, vrotCheck_ok hx ha h, vrotCheck_ok hx ho h', orValueError, orMemory, bind,
      Except.bind, newDims_eq hx, hcr]
    rfl
  · intro h
    unfold vrot2Arr
    by_cases h1 : AngleDims lead la
    · have h2 : ¬AngleDims lead lo := fun h2 => h ⟨h1, h2⟩
      simp only [checkVectors_ok hx hl, vrotCheck_ok hx ha h1, vrotCheck_none hx ho h2, orValueError, bind,
        Except.bind]
    · simp only [checkVectors_ok hx hl, vrotCheck_none hx ha h1, orValueError, bind, Except.bind]

example : ScalarsOf ⟨cells [45], ⟨0, [], []⟩⟩ [] (fun _ => 45) ∧
    ScalarsOf ⟨cells [7, 8], ⟨1, [2], [-1]⟩⟩ [2] (fun idx => if idx = [0] then 8 else 7) := by
  refine ⟨⟨rfl, rfl, fun idx h => by cases h; simp [elem, cells]⟩, ⟨rfl, rfl, fun idx h => ?_⟩⟩
  cases h with
  | cons h1 h2 =>
    cases h2
    rename_i a
    have : a = 0 ∨ a = 1 := by omega
    rcases this with rfl | rfl <;> simp [elem, cells]

end Verif.Props
