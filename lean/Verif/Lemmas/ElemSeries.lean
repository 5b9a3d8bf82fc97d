/-
Lemmas on the array functions `interp`, `fourier2d` and `sunpos`.
-/
import Verif.Lemmas.ElemApi
import Verif.Lemmas.Fourier

set_option linter.unusedSectionVars false

namespace Verif.Arr

open Verif.Buf Verif.Spec

variable {A : Type}

section interp
open Verif.Interp
variable {K : Type} [Field K] [LinearOrder K]

/-- All coefficients at one time. -/
theorem interpLeaf_eq (kind : Kind) (e : Bool) (nodes : List (X K)) {c0 : NdArray (X K)} {core : List Nat}
    {n : Nat} {R : List Nat → List (X K)} (hc : SeriesOf c0 core n R) (t : X K) (V : List (X K) → X K)
    (hV : ∀ c, c.length = n → interpPoint kind e t nodes c = some (V c)) (p : Int) (buf : List (X K)) :
    interpLeaf kind e nodes c0.mem c0.arr t ⟨p, core, cstrides core⟩ buf =
      wrList buf p ((indices core).map (fun j => V (R j))) := by
  have h0 := hV (List.replicate n .nan) (by simp)
  unfold interpPoint at h0 hV
  unfold interpLeaf
  simp only [Option.bind_eq_bind] at h0 hV ⊢
  cases hb : getBasis kind t nodes with
  | none => rw [hb] at h0; simp at h0
  | some basis =>
    cases hl : Bisect.rd nodes ((nodes.length : Int) - 1) with
    | none => rw [hb, hl] at h0; simp at h0
    | some last =>
      simp only [hb, hl, Option.bind_some] at hV ⊢
      by_cases hx : (e || basis.i0 == basis.i || X.eq t last) = true
      · simp only [hx, if_true] at hV ⊢
        obtain ⟨s, hs, hsl⟩ := hc.stride
        have := inner_eq (p := p) (c0 := c0.arr) (core := core)
          ⟨by rw [hs, hc.dim]; simp [hsl], by rw [hc.dim]; exact List.prefix_append _ _⟩
          (fun arrs buf => match arrs with
            | [c, c0'] => do
              let series ← readN c0.mem c0'.data c0'.dim.prod
              let r ← evalBasis kind basis series
              wrI buf c.data r
            | _ => none) (fun j => some (V (R j))) (by
              intro j hj buf
              obtain ⟨e1, e2⟩ := series_read hc (mem_indices.mp hj)
              simp only [e1, List.prod_singleton, e2, Option.bind_eq_bind, Option.bind_some,
                hV _ (hc.len _ (mem_indices.mp hj))]) buf
        refine this.trans ?_
        rw [mapM_some_map]
        rfl
      · simp only [hx] at hV ⊢
        rw [if_neg (by simp), fillValueRec_eq]
        congr 1
        refine List.map_congr_left (fun j hj => ?_)
        have := hV _ (hc.len _ (mem_indices.mp hj))
        simpa using this

/-- All times. -/
theorem interpRec_eq (kind : Kind) (e : Bool) (nodes : List (X K)) {t c0 : NdArray (X K)} {lead core : List Nat}
    {n : Nat} {T : List Nat → X K} {R : List Nat → List (X K)} (ht : ItemsOf t lead T) (hc : SeriesOf c0 core n R)
    (V : X K → List (X K) → X K)
    (hV : ∀ t c, c.length = n → interpPoint kind e t nodes c = some (V t c)) (buf : List (X K))
    (hb : buf.length = (lead ++ core).prod) :
    interpRec kind e nodes t.mem c0.mem c0.arr lead [t.arr, contiguous (lead ++ core)] buf =
      some ((indices (lead ++ core)).map (fun idx => V (T (idx.take lead.length)) (R (idx.drop lead.length)))) := by
  have h := walk_eq [none, none] (fun arrs buf => match arrs with
    | [x, c] => do
      let v ← t.mem x.data
      interpLeaf kind e nodes c0.mem c0.arr v c buf
    | _ => none) [] lead [t.arr, contiguous (lead ++ core)] buf
    (.cons (items_fitsN ht) (.cons (fits_new lead core) .nil))
  rw [List.append_nil] at h
  refine h.trans ?_
  refine (foldlM_congr_mem (g := fun buf idx => wrList buf (sub (contiguous (lead ++ core)) idx).data
    ((indices core).map (fun j => V (T idx) (R j)))) ?_ buf).trans ?_
  · intro idx hi s
    simp only [List.zipWith_cons_cons, List.zipWith_nil_left, at', items_read_none ht hi, Option.bind_eq_bind,
      Option.bind_some]
    rw [sub_block core hi]
    exact interpLeaf_eq kind e nodes hc (T idx) (V (T idx)) (hV (T idx)) _ s
  · rw [fold_blocks lead core (fun idx => (indices core).map (fun j => V (T idx) (R j)))
      (fun i => by rw [List.length_map, indices_length]) buf hb,
      flatten_blocks lead core (fun i j => V (T i) (R j))]
end interp

section fourier
open Verif.Fourier

/-- All pairs of times. -/
theorem fourierRec_eq {t1 t2 c0 : NdArray ℝ} {lead core : List Nat} {n1 n2 : Nat} {T1 T2 : List Nat → ℝ}
    {P Q : List Nat → Nat → Nat → ℝ} (h1 : ItemsOf t1 lead T1) (h2 : ItemsOf t2 lead T2)
    (hc : MatricesOf c0 core n1 n2 P Q) (min1 min2 : Int) (scale1 scale2 : ℝ)
    (hm : (min2.natAbs : Int) ≤ maxAbsDegree min1 (min1 + n1 - 1) min2 (min2 + n2 - 1))
    (f : F2D ℝ) (hf : F2DOk f min1 min2 n1 n2 scale1 scale2) (buf : List ℝ)
    (hb : buf.length = (lead ++ core).prod) :
    ∃ f', fourierRec Real.cos Real.sin t1.mem t2.mem c0.mem c0.arr lead
      [t1.arr, t2.arr, contiguous (lead ++ core)] (f, buf) = some (f',
        (indices (lead ++ core)).map (fun idx => ∑ k ∈ Finset.range (n1 * n2),
          (P (idx.drop lead.length) (k / n2) (k % n2) * Real.cos (angle min1 min2 n2 scale1 scale2
            (T1 (idx.take lead.length)) (T2 (idx.take lead.length)) k) +
          Q (idx.drop lead.length) (k / n2) (k % n2) * Real.sin (angle min1 min2 n2 scale1 scale2
            (T1 (idx.take lead.length)) (T2 (idx.take lead.length)) k)))) := by
  set V : List Nat → List Nat → ℝ := fun i j => ∑ k ∈ Finset.range (n1 * n2),
          (P j (k / n2) (k % n2) * Real.cos (angle min1 min2 n2 scale1 scale2 (T1 i) (T2 i) k) +
          Q j (k / n2) (k % n2) * Real.sin (angle min1 min2 n2 scale1 scale2 (T1 i) (T2 i) k)) with hV
  have h := walk_eq [none, none, none] (fun arrs (s : F2D ℝ × List ℝ) => match arrs with
    | [x1, x2, c] => do
      let v1 ← t1.mem x1.data
      let v2 ← t2.mem x2.data
      let f ← f2dCosSin Real.cos Real.sin s.1 v1 v2
      let buf ← fourierEvalRec f c0.mem c.dim [c, c0.arr] s.2
      return (f, buf)
    | _ => none) [] lead [t1.arr, t2.arr, contiguous (lead ++ core)] (f, buf)
    (.cons (items_fitsN h1) (.cons (items_fitsN h2) (.cons (fits_new lead core) .nil)))
  rw [List.append_nil] at h
  have hfold := fold_blocks lead core (fun i => (indices core).map (V i))
    (fun i => by rw [List.length_map, indices_length]) buf hb
  rw [flatten_blocks lead core V] at hfold
  obtain ⟨f', hf'⟩ := fold_state (fun f : F2D ℝ => F2DOk f min1 min2 n1 n2 scale1 scale2)
    (fun (s : F2D ℝ × List ℝ) idx => (fun arrs (s : F2D ℝ × List ℝ) => match arrs with
    | [x1, x2, c] => do
      let v1 ← t1.mem x1.data
      let v2 ← t2.mem x2.data
      let f ← f2dCosSin Real.cos Real.sin s.1 v1 v2
      let buf ← fourierEvalRec f c0.mem c.dim [c, c0.arr] s.2
      return (f, buf)
    | _ => none) (List.zipWith (fun g a => at' g a idx) [none, none, none]
      [t1.arr, t2.arr, contiguous (lead ++ core)]) s)
    (fun i => (indices core).map (V i)) (fun idx => (sub (contiguous (lead ++ core)) idx).data) (indices lead) (by
      intro idx hi f b hf
      obtain ⟨f', e1, e2, hcs⟩ := f2dCosSin_ok f min1 min2 n1 n2 scale1 scale2 (T1 idx) (T2 idx) hf hm
      refine ⟨f', e2, ?_⟩
      simp only [List.zipWith_cons_cons, List.zipWith_nil_left, at', items_read_none h1 hi,
        items_read_none h2 hi, Option.bind_eq_bind, Option.bind_some, e1]
      rw [sub_block core hi]
      simp only
      obtain ⟨s, hs, hsl⟩ := hc.stride
      have hin := inner_eq (p := (sub (contiguous (lead ++ core)) idx).data) (c0 := c0.arr) (core := core)
        ⟨by rw [hs, hc.dim]; simp [hsl], by rw [hc.dim]; exact List.prefix_append _ _⟩
        (fun arrs buf => match arrs with
          | [c, c0'] => do
            let ab ← readPairs c0.mem c0'.data (c0'.dim.take 2).prod
            let r ← f2dEval f' ab
            wrI buf c.data r
          | _ => none) (fun j => some (V idx j)) (by
            intro j hj buf
            obtain ⟨g1, g2⟩ := matrix_read hc (mem_indices.mp hj)
            have ev : f2dEval f' ((List.range (n1 * n2)).map (fun k => (P j (k / n2) (k % n2), Q j (k / n2) (k % n2)))) =
                some (V idx j) := by
              unfold f2dEval
              have u1 : (f'.max1 - f'.min1 + 1).toNat = n1 := by rw [e2.max1, e2.min1]; omega
              have u2 : (f'.max2 - f'.min2 + 1).toNat = n2 := by rw [e2.max2, e2.min2]; omega
              rw [u1, u2, hcs]
              refine fsEval2d_spec _ n1 n2 _ (fun k => (P j (k / n2) (k % n2), Q j (k / n2) (k % n2))) ?_
              intro k hk
              exact ⟨by simpa using hk, by simp [List.getElem?_range hk]⟩
            simp only [g1, List.take_succ_cons, List.take_zero, List.prod_cons, List.prod_nil, mul_one, g2,
              Option.bind_eq_bind, Option.bind_some, ev]) b
      rw [show fourierEvalRec f' c0.mem core [⟨(sub (contiguous (lead ++ core)) idx).data, core, cstrides core⟩, c0.arr] b = _
        from hin, mapM_some_map]
      simp only [Option.bind_some]
      cases wrList b (sub (contiguous (lead ++ core)) idx).data ((indices core).map (V idx)) <;> rfl)
    f buf _ hf hfold
  exact ⟨f', h.trans hf'⟩
end fourier

section points

theorem wrStride_one (data : Int) : ∀ (vs : List A) (buf : List A) (k : Nat),
    wrStride buf data 1 k vs = wrList buf (data + k) vs
  | [], buf, k => rfl
  | v :: vs, buf, k => by
    rw [wrStride, wrList, mul_one]
    congr 1
    funext b
    rw [wrStride_one data vs b (k + 1)]
    congr 1
    push_cast
    ring

theorem ins_fits {lead : List Nat} : ∀ l : List (NdArray A × List Nat × (List Nat → A)),
    (∀ e ∈ l, ItemsOf e.1 e.2.1 e.2.2 ∧ e.2.1 <+: lead) →
    List.Forall₂ (Fits lead) (List.replicate l.length (some 0)) (l.map (fun e => e.1.arr))
  | [], _ => .nil
  | e :: l, h => by
    rw [List.length_cons, List.replicate_succ, List.map_cons]
    exact .cons (items_fits0 (h e (by simp)).1 (h e (by simp)).2) (ins_fits l (fun e he => h e (by simp [he])))

/-- The values of all inputs at one index. -/
theorem ins_read {lead idx : List Nat} (hi : Index lead idx) : ∀ l : List (NdArray A × List Nat × (List Nat → A)),
    (∀ e ∈ l, ItemsOf e.1 e.2.1 e.2.2 ∧ e.2.1 <+: lead) →
    ((List.zipWith (fun g a => at' g a idx) (List.replicate l.length (some 0)) (l.map (fun e => e.1.arr))).zip
      (l.map (fun e => e.1.mem))).mapM (fun p => p.2 p.1.data) =
      some (l.map (fun e => e.2.2 (idx.take e.2.1.length)))
  | [], _ => rfl
  | e :: l, h => by
    rw [List.length_cons, List.replicate_succ, List.map_cons, List.map_cons, List.zipWith_cons_cons,
      List.zip_cons_cons, List.mapM_cons, ins_read hi l (fun e he => h e (by simp [he]))]
    simp only [items_read (h e (by simp)).1 (h e (by simp)).2 hi]
    rfl

/-- All points. -/
theorem pointsRec_eq {lead : List Nat} {w : Nat} (l : List (NdArray A × List Nat × (List Nat → A)))
    (h : ∀ e ∈ l, ItemsOf e.1 e.2.1 e.2.2 ∧ e.2.1 <+: lead) (f : List A → Option (List A)) (F : List Nat → List A)
    (hf : ∀ idx, Index lead idx → f (l.map (fun e => e.2.2 (idx.take e.2.1.length))) = some (F idx))
    (hF : ∀ idx, (F idx).length = w) (buf : List A) (hb : buf.length = (lead ++ [w]).prod) :
    pointsRec f (l.map (fun e => e.1.mem)) lead (contiguous (lead ++ [w]) :: l.map (fun e => e.1.arr)) buf =
      some ((indices lead).map F).flatten := by
  have hw := walk_eq (List.replicate ((l.map (fun e => e.1.mem)).length + 1) (some 0)) (fun arrs buf => match arrs with
    | out :: ins => do
      let vs ← (ins.zip (l.map (fun e => e.1.mem))).mapM (fun p => p.2 p.1.data)
      let r ← f vs
      let s ← out.stride.head?
      wrStride buf out.data s 0 r
    | [] => none) [] lead (contiguous (lead ++ [w]) :: l.map (fun e => e.1.arr)) buf (by
      rw [List.length_map, List.replicate_succ]
      refine .cons ⟨by simp [contiguous, cstrides_length], .inr ⟨⟨[w], rfl⟩, by simp [contiguous]⟩⟩ (ins_fits l h))
  rw [List.append_nil] at hw
  refine hw.trans ?_
  refine (foldlM_congr_mem (g := fun buf idx => wrList buf (sub (contiguous (lead ++ [w])) idx).data (F idx)) ?_
    buf).trans ?_
  · intro idx hi s
    have hi' := mem_indices.mp hi
    have hl : idx.length = lead.length := hi'.length_eq
    have e2 : at' (some 0) (contiguous (lead ++ [w])) idx = sub (contiguous (lead ++ [w])) idx := by
      simp only [at', contiguous, Nat.sub_zero]
      rw [List.take_of_length_le (by simp; omega)]
    rw [List.length_map, List.replicate_succ, List.zipWith_cons_cons]
    simp only [ins_read hi' l h, Option.bind_eq_bind, Option.bind_some, hf idx hi', e2]
    rw [sub_block [w] hi]
    show wrStride s _ ((([] : List Nat).prod : Nat) : Int) 0 (F idx) = _
    rw [List.prod_nil, Nat.cast_one, wrStride_one]
    simp
  · exact fold_blocks lead [w] F (fun i => by rw [hF]; simp) buf hb

end points

end Verif.Arr
