/-
Property C49: `spharpot` and `sphargrd` refuse arrays which do not fit.
-/
import Verif.Props.SeriesArrays

set_option linter.unusedSectionVars false

namespace Verif.Props

open Verif.Geo Verif.Spec Verif.ShPoint Verif.FullEval Verif.Arr Verif.Buf Verif.Legendre

/-- Dimensions and number of core dimensions. -/
def shapeOf (e : List Nat × List Nat) : List Nat × Nat := (e.1 ++ e.2, e.2.length)

/-- The common shape is that of the array `k`, with the largest number of leading dimensions. -/
def CommonOf (l : List (List Nat × List Nat)) (c : Common) : Prop :=
  ∃ (k : Nat) (e : List Nat × List Nat), c.idx = k ∧ l[k]? = some e ∧ c.dims = e.1 ++ e.2 ∧ c.ndim = e.1.length ∧
    ∀ e' ∈ l, e'.1.length ≤ e.1.length

theorem commonLoop_idx : ∀ (l pre : List (List Nat × List Nat)) (c : Common), CommonOf pre c →
    CommonOf (pre ++ l) (commonLoop pre.length (l.map shapeOf) c)
  | [], pre, c, h => by simpa [commonLoop] using h
  | e :: l, pre, c, h => by
    obtain ⟨k, e0, h1, h2, h3, h4, h5⟩ := h
    have ht : ((shapeOf e).1.length : Int) - ((shapeOf e).2 : Int) = e.1.length := by simp [shapeOf]
    have hk : k < pre.length := (List.getElem?_eq_some_iff.mp h2).1
    simp only [List.map_cons, commonLoop, ht]
    have := commonLoop_idx l (pre ++ [e]) (if c.ndim < e.1.length then ⟨pre.length, e.1.length, (shapeOf e).1⟩ else c) (by
      split
      · rename_i hc
        refine ⟨pre.length, e, rfl, by simp, rfl, rfl, fun e' he' => ?_⟩
        rcases List.mem_append.mp he' with g | g
        · have := h5 e' g
          omega
        · rw [List.mem_singleton.mp g]
      · rename_i hc
        refine ⟨k, e0, h1, by rw [List.getElem?_append_left hk, h2], h3, h4, fun e' he' => ?_⟩
        rcases List.mem_append.mp he' with g | g
        · exact h5 e' g
        · rw [List.mem_singleton.mp g]
          omega)
    simpa using this

theorem commonShape_idx (l : List (List Nat × List Nat)) (hl : l ≠ []) : CommonOf l (commonShape (l.map shapeOf)) := by
  cases l with
  | nil => exact absurd rfl hl
  | cons e l =>
    have ht : ((shapeOf e).1.length : Int) - ((shapeOf e).2 : Int) = e.1.length := by simp [shapeOf]
    have := commonLoop_idx l [e] ⟨0, e.1.length, (shapeOf e).1⟩ ⟨0, e, rfl, rfl, rfl, rfl, by simp⟩
    simp only [List.map_cons, commonShape, ht]
    exact this

theorem checkShapes_items (c : Common) : ∀ (l : List (List Nat × List Nat)) (i : Nat),
    checkShapes c i (l.map shapeOf) = true → ∀ (j : Nat) e, l[j]? = some e →
      (((i + j : Nat) : Int) ≠ c.idx → compareDims c.dims (e.1 ++ e.2) e.1.length = false) ∧
      (e.2.length = 2 → (e.1 ++ e.2)[(e.1 ++ e.2).length - 1]? = some 2)
  | [], _, _, j, e, h => by simp at h
  | f :: l, i, h, j, e, he => by
    simp only [List.map_cons, checkShapes] at h
    split at h
    · cases h
    rename_i h1
    split at h
    · cases h
    rename_i h2
    cases j with
    | zero =>
      simp only [List.getElem?_cons_zero, Option.some.injEq] at he
      subst he
      simp only [shapeOf, List.length_append, Nat.add_sub_cancel] at h1 h2
      refine ⟨fun hi => ?_, fun hc => ?_⟩
      · by_contra hcon
        exact h1 ⟨by simpa using hi, by simpa using hcon⟩
      · by_contra hcon
        exact h2 ⟨hc, by simpa using hcon⟩
    | succ j =>
      have := checkShapes_items c l (i + 1) h j e (by simpa using he)
      refine ⟨fun hi => this.1 ?_, this.2⟩
      rw [show i + 1 + j = i + (j + 1) by omega]
      exact hi

/-- Leading dimensions which do not match, or a last core dimension other than two. -/
def BadShapes (l : List (List Nat × List Nat)) : Prop :=
  (∃ p ∈ l, ∃ q ∈ l, ¬p.1 <+: q.1 ∧ ¬q.1 <+: p.1) ∨ ∃ p ∈ l, ∃ n m, p.2 = [n, m] ∧ m ≠ 2

theorem shapes_mismatch (l : List (List Nat × List Nat)) (h : BadShapes l) :
    checkShapes (commonShape (l.map shapeOf)) 0 (l.map shapeOf) = false := by
  by_contra hcon
  have hc := checkShapes_items _ l 0 (by simpa using hcon)
  have hl : l ≠ [] := by
    rintro rfl
    rcases h with ⟨p, hp, -⟩ | ⟨p, hp, -⟩ <;> simp at hp
  obtain ⟨k, e, h1, h2, h3, h4, h5⟩ := commonShape_idx l hl
  have hpre : ∀ p ∈ l, p.1 <+: e.1 := by
    intro p hp
    obtain ⟨j, hj⟩ := List.mem_iff_getElem?.mp hp
    by_cases hjk : j = k
    · subst hjk
      rw [h2] at hj
      rw [← Option.some.inj hj]
    · have := (hc j p hj).1 (by rw [h1]; simpa using hjk)
      rw [h3] at this
      exact compareDims_prefix (h5 p hp) this
  rcases h with ⟨p, hp, q, hq, a, b⟩ | ⟨p, hp, n, m, hm, h2⟩
  · rcases Nat.le_total p.1.length q.1.length with g | g
    · exact a (List.prefix_of_prefix_length_le (hpre p hp) (hpre q hq) g)
    · exact b (List.prefix_of_prefix_length_le (hpre q hq) (hpre p hp) g)
  · obtain ⟨j, hj⟩ := List.mem_iff_getElem?.mp hp
    have := (hc j p hj).2 (by rw [hm]; rfl)
    rw [hm, List.getElem?_append_right (by simp)] at this
    simp at this
    exact h2 this

theorem select_none (x : Int) (l : List Int) (degree : Int) (h : ∃ y ∈ x :: l, y < 0) :
    selectDegree (x :: l) degree = none := by
  obtain ⟨g1, g2, -⟩ := foldl_min l x
  obtain ⟨y, hy, hy0⟩ := h
  unfold selectDegree
  refine if_pos ?_
  show l.foldl (fun m x => if x < m then x else m) x < 0
  rcases List.mem_cons.mp hy with rfl | hy
  · omega
  · have := g2 y hy
    omega

/-- **C49** `spharpot` refuses with `ValueError` arrays with too few dimensions, empty series,
leading dimensions which do not match and coefficients or longitude terms which are not pairs. -/
theorem C49_spharpot_rejects (fl : Nat → Int) (hf : SqrtDegree fl) (junk : Nat → List ℝ)
    (rad coef lp rrp lcs : NdArray ℝ) (degree : Int) :
    (coef.arr.dim.length < 2 ∨ lp.arr.dim.length < 1 ∨ rrp.arr.dim.length < 1 ∨ lcs.arr.dim.length < 2 →
      spharpot fl junk rad coef lp rrp lcs degree = .error .valueError) ∧
    ∀ lr lc ll lq lt n0 m0 n1 n2 n3 m3, rad.arr.dim = lr → coef.arr.dim = lc ++ [n0, m0] →
      lp.arr.dim = ll ++ [n1] → rrp.arr.dim = lq ++ [n2] → lcs.arr.dim = lt ++ [n3, m3] →
      (n0 = 0 ∨ n1 = 0 ∨ n2 = 0 ∨ n3 = 0 ∨
        BadShapes [(lr, []), (lc, [n0, m0]), (ll, [n1]), (lq, [n2]), (lt, [n3, m3])]) →
      spharpot fl junk rad coef lp rrp lcs degree = .error .valueError := by
  constructor
  · intro h
    unfold spharpot minNdim
    by_cases c1 : 2 ≤ coef.arr.dim.length
    swap
    · simp only [if_neg c1]; rfl
    by_cases c2 : 1 ≤ lp.arr.dim.length
    swap
    · simp only [if_pos c1, if_neg c2]; rfl
    by_cases c3 : 1 ≤ rrp.arr.dim.length
    swap
    · simp only [if_pos c1, if_pos c2, if_neg c3]; rfl
    have c4 : ¬2 ≤ lcs.arr.dim.length := by omega
    simp only [if_pos c1, if_pos c2, if_pos c3, if_neg c4]; rfl
  · intro lr lc ll lq lt n0 m0 n1 n2 n3 m3 e0 e1 e2 e3 e4 h
    have s1 : coef.arr.dim[coef.arr.dim.length - 2]? = some n0 := by
      rw [e1, List.getElem?_append_right (by simp)]; simp
    have s2 : lp.arr.dim[lp.arr.dim.length - 1]? = some n1 := by
      rw [e2, List.getElem?_append_right (by simp)]; simp
    have s3 : rrp.arr.dim[rrp.arr.dim.length - 1]? = some n2 := by
      rw [e3, List.getElem?_append_right (by simp)]; simp
    have s4 : lcs.arr.dim[lcs.arr.dim.length - 2]? = some n3 := by
      rw [e4, List.getElem?_append_right (by simp)]; simp
    have hz := (C50_largest fl hf).1
    unfold spharpot
    simp only [show minNdim coef.arr 2 = some () by simp [minNdim, e1],
      show minNdim lp.arr 1 = some () by simp [minNdim, e2], show minNdim rrp.arr 1 = some () by simp [minNdim, e3],
      show minNdim lcs.arr 2 = some () by simp [minNdim, e4], s1, s2, s3, s4, orValueError, orMemory, bind, Except.bind]
    cases hs : selectDegree [sizeToDegree fl n0, sizeToDegree fl n1, (n2 : Int) - 1, (n3 : Int) - 1] degree with
    | none => rfl
    | some d =>
      rcases h with rfl | rfl | rfl | rfl | h
      · rw [select_none _ _ _ ⟨_, by simp, hz⟩] at hs; cases hs
      · rw [select_none _ _ _ ⟨sizeToDegree fl 0, by simp, hz⟩] at hs; cases hs
      · rw [select_none _ _ _ ⟨((0 : Nat) : Int) - 1, by simp, by simp⟩] at hs; cases hs
      · rw [select_none _ _ _ ⟨((0 : Nat) : Int) - 1, by simp, by simp⟩] at hs; cases hs
      · have := shapes_mismatch _ h
        simp only [List.map_cons, List.map_nil, shapeOf, List.length_cons, List.length_nil, Nat.zero_add,
          Nat.reduceAdd, List.append_nil] at this
        rw [← e0, ← e1, ← e2, ← e3, ← e4] at this
        simp only [this]
        rfl

/-- **C49** `sphargrd` refuses with `ValueError` arrays with too few dimensions, empty series,
leading dimensions which do not match and coefficients or longitude terms which are not pairs. -/
theorem C49_sphargrd_rejects (fl : Nat → Int) (hf : SqrtDegree fl) (junk : Nat → List ℝ)
    (lat coef lp ldp rrp lcs : NdArray ℝ) (int : Bool) (degree : Int) :
    (coef.arr.dim.length < 2 ∨ lp.arr.dim.length < 1 ∨ ldp.arr.dim.length < 1 ∨ rrp.arr.dim.length < 1 ∨
        lcs.arr.dim.length < 2 →
      sphargrd libm nearPole fl junk lat coef lp ldp rrp lcs int degree = .error .valueError) ∧
    ∀ lr lc ll ld lq lt n0 m0 n1 n1' n2 n3 m3, lat.arr.dim = lr → coef.arr.dim = lc ++ [n0, m0] →
      lp.arr.dim = ll ++ [n1] → ldp.arr.dim = ld ++ [n1'] → rrp.arr.dim = lq ++ [n2] →
      lcs.arr.dim = lt ++ [n3, m3] →
      (n0 = 0 ∨ n1 = 0 ∨ n1' = 0 ∨ n2 = 0 ∨ n3 = 0 ∨
        BadShapes [(lr, []), (lc, [n0, m0]), (ll, [n1]), (ld, [n1']), (lq, [n2]), (lt, [n3, m3])]) →
      sphargrd libm nearPole fl junk lat coef lp ldp rrp lcs int degree = .error .valueError := by
  constructor
  · intro h
    unfold sphargrd minNdim
    by_cases c1 : 2 ≤ coef.arr.dim.length
    swap
    · simp only [if_neg c1]; rfl
    by_cases c2 : 1 ≤ lp.arr.dim.length
    swap
    · simp only [if_pos c1, if_neg c2]; rfl
    by_cases c2' : 1 ≤ ldp.arr.dim.length
    swap
    · simp only [if_pos c1, if_pos c2, if_neg c2']; rfl
    by_cases c3 : 1 ≤ rrp.arr.dim.length
    swap
    · simp only [if_pos c1, if_pos c2, if_pos c2', if_neg c3]; rfl
    have c4 : ¬2 ≤ lcs.arr.dim.length := by omega
    simp only [if_pos c1, if_pos c2, if_pos c2', if_pos c3, if_neg c4]; rfl
  · intro lr lc ll ld lq lt n0 m0 n1 n1' n2 n3 m3 e0 e1 e2 e2' e3 e4 h
    have s1 : coef.arr.dim[coef.arr.dim.length - 2]? = some n0 := by
      rw [e1, List.getElem?_append_right (by simp)]; simp
    have s2 : lp.arr.dim[lp.arr.dim.length - 1]? = some n1 := by
      rw [e2, List.getElem?_append_right (by simp)]; simp
    have s2' : ldp.arr.dim[ldp.arr.dim.length - 1]? = some n1' := by
      rw [e2', List.getElem?_append_right (by simp)]; simp
    have s3 : rrp.arr.dim[rrp.arr.dim.length - 1]? = some n2 := by
      rw [e3, List.getElem?_append_right (by simp)]; simp
    have s4 : lcs.arr.dim[lcs.arr.dim.length - 2]? = some n3 := by
      rw [e4, List.getElem?_append_right (by simp)]; simp
    have hz := (C50_largest fl hf).1
    unfold sphargrd
    simp only [show minNdim coef.arr 2 = some () by simp [minNdim, e1],
      show minNdim lp.arr 1 = some () by simp [minNdim, e2], show minNdim ldp.arr 1 = some () by simp [minNdim, e2'],
      show minNdim rrp.arr 1 = some () by simp [minNdim, e3],
      show minNdim lcs.arr 2 = some () by simp [minNdim, e4], s1, s2, s2', s3, s4, orValueError, orMemory, bind,
      Except.bind]
    cases hs : selectDegree [sizeToDegree fl n0, sizeToDegree fl n1, sizeToDegree fl n1', (n2 : Int) - 1,
        (n3 : Int) - 1] degree with
    | none => rfl
    | some d =>
      rcases h with rfl | rfl | rfl | rfl | rfl | h
      · rw [select_none _ _ _ ⟨_, by simp, hz⟩] at hs; cases hs
      · rw [select_none _ _ _ ⟨sizeToDegree fl 0, by simp, hz⟩] at hs; cases hs
      · rw [select_none _ _ _ ⟨sizeToDegree fl 0, by simp, hz⟩] at hs; cases hs
      · rw [select_none _ _ _ ⟨((0 : Nat) : Int) - 1, by simp, by simp⟩] at hs; cases hs
      · rw [select_none _ _ _ ⟨((0 : Nat) : Int) - 1, by simp, by simp⟩] at hs; cases hs
      · have := shapes_mismatch _ h
        simp only [List.map_cons, List.map_nil, shapeOf, List.length_cons, List.length_nil, Nat.zero_add,
          Nat.reduceAdd, List.append_nil] at this
        rw [← e0, ← e1, ← e2, ← e2', ← e3, ← e4] at this
        simp only [this]
        rfl

/-- **C49** `sheval` refuses with `ValueError` points without a dimension, coefficients with
less than two dimensions and an array of scales of a length other than three. -/
theorem C49_sheval_rejects_arguments (fl : Nat → Int) (alloc : Nat → Mem ℝ) (junk : Nat → List ℝ)
    (x coef : NdArray ℝ) (ctIn ctOut mode : Int) (int : Bool) (degree : Int) (sp : ℝ) (sg : Scale ℝ)
    (h : x.arr.dim = [] ∨ coef.arr.dim.length < 2 ∨ ∃ l, sg = .vector l ∧ l.length ≠ 3) :
    shevalArr fl alloc junk x coef ctIn ctOut mode int degree sp sg = .error .valueError := by
  unfold shevalArr sheval minNdim
  cases checkCT ctIn with
  | none => rfl
  | some i =>
  cases checkCT ctOut with
  | none => rfl
  | some o =>
  cases checkMode mode with
  | none => rfl
  | some md =>
  by_cases c1 : 1 ≤ x.arr.dim.length
  swap
  · simp only [if_neg c1]; rfl
  by_cases c2 : 2 ≤ coef.arr.dim.length
  swap
  · simp only [if_pos c1, if_neg c2]; rfl
  obtain ⟨n, hn⟩ : ∃ n, coef.arr.dim[coef.arr.dim.length - 2]? = some n :=
    ⟨_, List.getElem?_eq_getElem (by omega)⟩
  simp only [if_pos c1, if_pos c2, hn, orValueError, orMemory, bind, Except.bind]
  cases selectDegree [sizeToDegree fl n] degree with
  | none => rfl
  | some d =>
  cases checkShapes (commonShape [(x.arr.dim, 1), (coef.arr.dim, 2)]) 0 [(x.arr.dim, 1), (coef.arr.dim, 2)] with
  | false => rfl
  | true =>
  rcases h with h | h | ⟨l, rfl, hl⟩
  · rw [h] at c1; simp at c1
  · omega
  · have : (Scale.vector l).get = none := by
      match l, hl with
      | [], _ => rfl
      | [_], _ => rfl
      | [_, _], _ => rfl
      | [_, _, _], h => exact absurd rfl h
      | _ :: _ :: _ :: _ :: _, _ => rfl
    simp only [if_true, this]

example : BadShapes [([], []), ([2], [3, 2]), ([5], [3])] :=
  .inl ⟨([2], [3, 2]), by simp, ([5], [3]), by simp, by decide, by decide⟩

example : BadShapes [([], []), ([4], [3, 5]), ([4], [3])] := .inr ⟨([4], [3, 5]), by simp, 3, 5, rfl, by decide⟩

end Verif.Props
