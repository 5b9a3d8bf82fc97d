/-
Property C64: the functions applied item by item, on arrays of any shape.
-/
import Verif.Lemmas.ElemSeries
import Verif.Props.Time
import Verif.Props.Bisect
import Verif.Props.Interp
import Verif.Props.Series
import Verif.Props.Sun

set_option linter.unusedSectionVars false

namespace Verif.Props

open Verif.Spec Verif.Arr Verif.Buf

/-! ### Conversions of times -/

section time
open Verif.Time
variable {K : Type} [Field K] [LinearOrder K] [IsStrictOrderedRing K] [FloorRing K]

theorem timeArr_items {A : Type} (f : A → A) (junk : Nat → List A) (hj : ∀ n, (junk n).length = n) (x : NdArray A)
    (lead : List Nat) (S : List Nat → A) (hx : ItemsOf x lead S) (hl : lead.length ≤ 15) :
    ∃ out, timeArr f junk x = .ok out ∧ ItemsOf out lead (fun idx => f (S idx)) := by
  have h := mapRec_eq (some 0) (.inr rfl) (f := fun v => some (f v)) hx f (fun _ _ => rfl) (junk lead.prod) (hj _)
  refine ⟨_, ?_, items_new (fun idx => f (S idx))⟩
  unfold timeArr
  rw [hx.dim, if_neg (by unfold maxNdim; omega), h]
  rfl

theorem timeArr_error {A : Type} (f : A → A) (junk : Nat → List A) (x : NdArray A)
    (hl : 15 < x.arr.dim.length) : timeArr f junk x = .error .valueError := by
  unfold timeArr
  rw [if_pos (by unfold maxNdim; omega)]

/-- **C64** conversions of times: the result has the shape of the argument and at each index the
conversion of the item at that index; arrays of more than 15 dimensions are refused. -/
theorem C64_time (j : Int) (junk : Nat → List (X K)) (hj : ∀ n, (junk n).length = n) (x : NdArray (X K))
    (lead : List Nat) (S : List Nat → X K) (hx : ItemsOf x lead S) :
    (lead.length ≤ 15 →
      (∃ out, decimalYearToMjd2000Arr junk x = .ok out ∧ ItemsOf out lead (fun idx => decimalYearToMjd2kX (S idx))) ∧
      (∃ out, mjd2000ToDecimalYearArr j junk x = .ok out ∧ ItemsOf out lead (fun idx => mjd2kToDecimalYearX j (S idx))) ∧
      (∃ out, mjd2000ToYearFractionArr j junk x = .ok out ∧
        ItemsOf out lead (fun idx => mjd2kToYearFractionX j (S idx)))) ∧
    (15 < lead.length → decimalYearToMjd2000Arr junk x = .error .valueError ∧
      mjd2000ToDecimalYearArr j junk x = .error .valueError ∧
      mjd2000ToYearFractionArr j junk x = .error .valueError) := by
  refine ⟨fun hl => ⟨timeArr_items _ junk hj x lead S hx hl, timeArr_items _ junk hj x lead S hx hl,
    timeArr_items _ junk hj x lead S hx hl⟩, fun hl => ?_⟩
  rw [← hx.dim] at hl
  exact ⟨timeArr_error _ junk x hl, timeArr_error _ junk x hl, timeArr_error _ junk x hl⟩

/-- **C64** with C06: an array of times survives the conversion to decimal years and back, at
each index and for not-a-number and infinities too. -/
theorem C64_time_round_trip (j : Int) (junk junk' : Nat → List (X K)) (hj : ∀ n, (junk n).length = n)
    (hj' : ∀ n, (junk' n).length = n) (x : NdArray (X K)) (lead : List Nat) (S : List Nat → X K)
    (hx : ItemsOf x lead S) (hl : lead.length ≤ 15)
    (ht : ∀ idx, Index lead idx → ∀ t, S idx = .fin t → (firstDay : K) ≤ t) :
    ∃ years back, mjd2000ToDecimalYearArr j junk x = .ok years ∧ decimalYearToMjd2000Arr junk' years = .ok back ∧
      ItemsOf back lead S := by
  obtain ⟨years, h1, h2⟩ := ((C64_time j junk hj x lead S hx).1 hl).2.1
  obtain ⟨back, h3, h4⟩ := ((C64_time j junk' hj' years lead _ h2).1 hl).1
  refine ⟨years, back, h1, h3, h4.dim, h4.ndim, fun idx hi => ?_⟩
  rw [h4.get idx hi, C06_round_trip_any j (S idx) (ht idx hi)]

end time

/-! ### Interval search -/

section bisect
open Verif.Bisect
variable {α : Type} [LinearOrder α]

/-- Nodes of a 1D contiguous array. -/
structure NodesOf {A : Type} (v : NdArray A) (nodes : List A) : Prop where
  dim : v.arr.dim = [nodes.length]
  get : ∀ k (hk : k < nodes.length), elem v.mem v.arr.data [1] [k] = some nodes[k]

theorem nodes_read {A : Type} {v : NdArray A} {nodes : List A} (hv : NodesOf v nodes) :
    readN v.mem v.arr.data nodes.length = some nodes := by
  refine readN_of (fun k hk => ?_)
  rw [← hv.get k hk]
  simp [elem]

/-- **C64** `bisect`: the result has the shape of `x`; at each index, for ascending nodes, it is
the number of the nodes not above (right) or below (left) the item minus one, and -1 for
not-a-number. -/
theorem C64_bisect (junk : Nat → List Int) (hj : ∀ n, (junk n).length = n) (v : NdArray α) (nodes : List α)
    (hv : NodesOf v nodes) (hs : nodes.Pairwise (· ≤ ·)) (x : NdArray (Option α)) (lead : List Nat)
    (S : List Nat → Option α) (hx : ItemsOf x lead S) :
    (∃ out, bisectArr junk v x 1 = .ok out ∧ ItemsOf out lead (fun idx => match S idx with
      | none => -1
      | some a => (nodes.countP (fun b => decide (b ≤ a)) : Int) - 1)) ∧
    (∃ out, bisectArr junk v x 0 = .ok out ∧ ItemsOf out lead (fun idx => match S idx with
      | none => -1
      | some a => (nodes.countP (fun b => decide (b < a)) : Int) - 1)) := by
  have key : ∀ q : Option α, bisectRight q nodes = some (match q with
      | none => -1
      | some a => (nodes.countP (fun b => decide (b ≤ a)) : Int) - 1) ∧ bisectLeft q nodes = some (match q with
      | none => -1
      | some a => (nodes.countP (fun b => decide (b < a)) : Int) - 1) := by
    intro q
    obtain ⟨h1, h2⟩ := C01_bisect_searchsorted nodes hs [q]
    simp only [bisectPy, List.map_cons, List.map_nil, List.cons.injEq, and_true] at h1 h2
    cases q <;> exact ⟨h1, h2⟩
  constructor
  · have h := mapRec_eq none (.inl rfl) (f := fun q => bisectRight q nodes) hx (fun q => match q with
      | none => -1
      | some a => (nodes.countP (fun b => decide (b ≤ a)) : Int) - 1) (fun idx _ => (key (S idx)).1)
      (junk lead.prod) (hj _)
    refine ⟨_, ?_, items_new _⟩
    unfold bisectArr checkSide oneDim
    rw [if_neg (by decide), if_pos rfl, hv.dim, hx.dim]
    simp only [orValueError, nodes_read hv, orMemory, bind, Except.bind, h]
    rfl
  · have h := mapRec_eq none (.inl rfl) (f := fun q => bisectLeft q nodes) hx (fun q => match q with
      | none => -1
      | some a => (nodes.countP (fun b => decide (b < a)) : Int) - 1) (fun idx _ => (key (S idx)).2)
      (junk lead.prod) (hj _)
    refine ⟨_, ?_, items_new _⟩
    unfold bisectArr checkSide oneDim
    rw [if_pos rfl, hv.dim, hx.dim]
    simp only [orValueError, nodes_read hv, orMemory, bind, Except.bind, h]
    rfl

/-- **C64** `bisect`: other sides and nodes which are not one-dimensional are refused. -/
theorem C64_bisect_rejects (junk : Nat → List Int) (v : NdArray α) (x : NdArray (Option α)) (side : Int)
    (h : (side ≠ 0 ∧ side ≠ 1) ∨ v.arr.dim.length ≠ 1) : bisectArr junk v x side = .error .valueError := by
  unfold bisectArr checkSide
  rcases h with ⟨h0, h1⟩ | h
  · rw [if_neg h0, if_neg h1]
    rfl
  · have hd : oneDim v.arr = none := by
      unfold oneDim
      split
      · rename_i n hn
        rw [hn] at h
        exact absurd rfl h
      · rfl
    rw [hd]
    by_cases h0 : side = 0
    · rw [if_pos h0]; rfl
    · by_cases h1 : side = 1
      · rw [if_neg h0, if_pos h1]; rfl
      · rw [if_neg h0, if_neg h1]; rfl

end bisect

/-! ### Interpolation -/

section interp
open Verif.Interp
variable {K : Type} [Field K] [LinearOrder K]

/-- Values of `kind`. -/
def kindCode : Kind → Int
  | .c0 => 0
  | .c1 => 1
  | .c1d1 => 17

/-- Least number of nodes. -/
def nodesNeeded : Kind → Nat
  | .c0 => 1
  | _ => 2

theorem checkKind_code (k : Kind) : checkKind (kindCode k) = some k := by cases k <;> rfl

/-- **C64** `interp`: the result has the shape of the times followed by the shape of the
coefficients without the last dimension; the item at a time index and a coefficient index is the
interpolated value of that series at that time (`interp` of one time and one series, see C02, C03
and C04). -/
theorem C64_interp (junk : Nat → List (X K)) (hj : ∀ n, (junk n).length = n) (t t0 c0 : NdArray (X K))
    (nodes : List (X K)) (ht0 : NodesOf t0 nodes) (lead core : List Nat) (T : List Nat → X K)
    (ht : ItemsOf t lead T) (R : List Nat → List (X K)) (hc : SeriesOf c0 core nodes.length R) (kind : Kind)
    (e : Bool) (hn : nodes.length < 2 ^ 64) (hk : nodesNeeded kind ≤ nodes.length) :
    ∃ out V, interpArr junk t t0 c0 (kindCode kind) e = .ok out ∧ ItemsOf out (lead ++ core) V ∧
      ∀ i j, Index lead i → Index core j → interp kind e (T i) nodes (R j) = .ok (V (i ++ j)) := by
  have hk' : minNodes kind ≤ nodes.length := by cases kind <;> exact hk
  have hV : ∀ t c, c.length = nodes.length → interpPoint kind e t nodes c =
      some ((interpPoint kind e t nodes c).getD .nan) := by
    intro t c hcl
    have := interpPoint_safe kind e t nodes c hcl.symm hk' hn
    cases h : interpPoint kind e t nodes c with
    | none => exact absurd h this
    | some v => rfl
  have h := interpRec_eq kind e nodes ht hc (fun t c => (interpPoint kind e t nodes c).getD .nan) hV
    (junk (lead ++ core).prod) (hj _)
  refine ⟨_, _, ?_, items_new (fun idx => (interpPoint kind e (T (idx.take lead.length)) nodes
    (R (idx.drop lead.length))).getD .nan), ?_⟩
  · unfold interpArr
    have hm : minNdim c0.arr 1 = some () := by unfold minNdim; rw [hc.dim, if_pos (by simp)]
    have hcn : checkNodes kind nodes.length c0.arr = some () := by
      unfold checkNodes
      rw [hc.dim, if_neg (by simp), if_neg (by omega)]
    have hd : c0.arr.dim.take (c0.arr.dim.length - 1) = core := by rw [hc.dim]; simp
    have ho : oneDim t0.arr = some nodes.length := by unfold oneDim; rw [ht0.dim]
    rw [checkKind_code, ho, hm]
    simp only [orValueError, bind, Except.bind, hcn, hd, ht.dim, nodes_read ht0, orMemory, h]
    rfl
  · intro i j hi hj'
    have hl : i.length = lead.length := hi.length_eq
    have hr := hc.len j hj'
    unfold interp
    rw [if_neg (by simp [hr]), if_neg (by omega), hV (T i) (R j) hr]
    simp [← hl]

/-- **C64** `interp`: unknown kinds, nodes which are not one-dimensional, coefficients without a
dimension, series whose length is not the number of nodes and too few nodes are refused. -/
theorem C64_interp_rejects (junk : Nat → List (X K)) (t t0 c0 : NdArray (X K)) (kind : Int) (e : Bool)
    (h : (∀ k, kind ≠ kindCode k) ∨ t0.arr.dim.length ≠ 1 ∨ c0.arr.dim.getLast? ≠ t0.arr.dim.head? ∨
      ∃ k n, kind = kindCode k ∧ t0.arr.dim = [n] ∧ n < nodesNeeded k) :
    interpArr junk t t0 c0 kind e = .error .valueError := by
  unfold interpArr
  by_cases hk : ∃ k, kind = kindCode k
  · obtain ⟨k, rfl⟩ := hk
    rw [checkKind_code]
    cases ho : oneDim t0.arr with
    | none => rfl
    | some n =>
      have hd : t0.arr.dim = [n] := by
        unfold oneDim at ho
        split at ho
        · rename_i m hm
          rw [hm, Option.some.inj ho]
        · simp at ho
      cases hm : minNdim c0.arr 1 with
      | none => rfl
      | some u =>
        have hc : checkNodes k n c0.arr = none := by
          unfold checkNodes
          rcases h with h | h | h | ⟨k', n', e1, e2, e3⟩
          · exact absurd rfl (h k)
          · rw [hd] at h; simp at h
          · rw [hd] at h
            rw [if_pos (by simpa using h)]
          · have : k' = k := by
              cases k <;> cases k' <;> simp [kindCode] at e1 <;> rfl
            subst this
            have : n' = n := by rw [hd] at e2; simpa using e2.symm
            subst this
            split
            · rfl
            · rw [if_pos]
              cases k' <;> exact e3
        simp only [orValueError, bind, Except.bind, hc]
  · have : checkKind kind = none := by
      unfold checkKind
      have h0 : kind ≠ 0 := fun e => hk ⟨.c0, e⟩
      have h1 : kind ≠ 1 := fun e => hk ⟨.c1, e⟩
      have h17 : kind ≠ 17 := fun e => hk ⟨.c1d1, e⟩
      rw [if_neg h0, if_neg h1, if_neg h17]
    rw [this]
    rfl

end interp

/-! ### 2D Fourier series -/

section fourier
open Verif.Fourier

/-- **C64** `fourier2d`: the result has the shape of the times followed by the shape of the
coefficients without the last three dimensions; the item at a time index and a coefficient index is
the Fourier sum of that matrix at that pair of times.  What is missing: second minimal degrees of
the largest absolute value, see `C29_overflow`. -/
theorem C64_fourier2d_partial (junk : Nat → List ℝ) (hj : ∀ n, (junk n).length = n) (junk2 : Nat → ℝ × ℝ)
    (t1 t2 c0 : NdArray ℝ) (lead core : List Nat) (n1 n2 : Nat) (T1 T2 : List Nat → ℝ)
    (P Q : List Nat → Nat → Nat → ℝ) (h1 : ItemsOf t1 lead T1) (h2 : ItemsOf t2 lead T2)
    (hc : MatricesOf c0 core n1 n2 P Q) (min1 min2 : Int) (scale1 scale2 : ℝ)
    (h : min2.natAbs ≤ 1 ∨ min2.natAbs ≤ min1.natAbs ∨ min2.natAbs ≤ (min1 + n1 - 1).natAbs ∨
      min2.natAbs ≤ (min2 + n2 - 1).natAbs) :
    ∃ out V, fourier2dArr Real.cos Real.sin junk junk2 t1 t2 c0 min1 min2 scale1 scale2 = .ok out ∧
      ItemsOf out (lead ++ core) V ∧ ∀ i j, Index lead i → Index core j →
        V (i ++ j) = fourierSum (P j) (Q j) n1 n2 min1 min2 (scale1 * T1 i) (scale2 * T2 i) := by
  obtain ⟨f', hf⟩ := fourierRec_eq h1 h2 hc min1 min2 scale1 scale2 (by simp only [maxAbsDegree]; omega) _
    (f2dInit_ok junk2 min1 min2 n1 n2 scale1 scale2) (junk (lead ++ core).prod) (hj _)
  refine ⟨_, _, ?_, items_new (fun idx => ∑ k ∈ Finset.range (n1 * n2),
          (P (idx.drop lead.length) (k / n2) (k % n2) * Real.cos (angle min1 min2 n2 scale1 scale2
            (T1 (idx.take lead.length)) (T2 (idx.take lead.length)) k) +
          Q (idx.drop lead.length) (k / n2) (k % n2) * Real.sin (angle min1 min2 n2 scale1 scale2
            (T1 (idx.take lead.length)) (T2 (idx.take lead.length)) k))), ?_⟩
  · unfold fourier2dArr
    have hm : minNdim c0.arr 3 = some () := by unfold minNdim; rw [hc.dim, if_pos (by simp)]
    have hck : checkFourier t1.arr t2.arr c0.arr = some () := by
      unfold checkFourier
      rw [h1.dim, h2.dim, hc.dim]
      simp
    have hd : c0.arr.dim.take (c0.arr.dim.length - 3) = core := by rw [hc.dim]; simp
    have hs1 : c0.arr.dim[c0.arr.dim.length - 3]? = some n1 := by rw [hc.dim]; simp
    have hs2 : c0.arr.dim[c0.arr.dim.length - 2]? = some n2 := by rw [hc.dim]; simp
    rw [hm, hck]
    simp only [orValueError, bind, Except.bind, hs1, hs2, hd, h1.dim, orMemory, hf]
    rfl
  · intro i j hi hj'
    have hl : i.length = lead.length := hi.length_eq
    simp only [← hl, List.take_left, List.drop_left]
    rw [sum_range_mul]
    unfold fourierSum
    refine Finset.sum_congr rfl (fun a _ => Finset.sum_congr rfl (fun b hb => ?_))
    have hb' := Finset.mem_range.mp hb
    have e : angle min1 min2 n2 scale1 scale2 (T1 i) (T2 i) (a * n2 + b) =
        (min1 + a) * (scale1 * T1 i) + (min2 + b) * (scale2 * T2 i) := by
      unfold angle
      rw [div_mul_add a hb', mod_mul_add a hb']
      push_cast; ring
    rw [e, div_mul_add a hb', mod_mul_add a hb']

/-- **C64** `fourier2d`: times of different shapes, coefficients of less than three dimensions and
coefficients which are not pairs are refused. -/
theorem C64_fourier2d_rejects (cos sin : ℝ → ℝ) (junk : Nat → List ℝ) (junk2 : Nat → ℝ × ℝ) (t1 t2 c0 : NdArray ℝ)
    (min1 min2 : Int) (scale1 scale2 : ℝ)
    (h : t1.arr.dim ≠ t2.arr.dim ∨ c0.arr.dim.length < 3 ∨ c0.arr.dim.getLast? ≠ some 2) :
    fourier2dArr cos sin junk junk2 t1 t2 c0 min1 min2 scale1 scale2 = .error .valueError := by
  unfold fourier2dArr
  by_cases hm : 3 ≤ c0.arr.dim.length
  · have hck : checkFourier t1.arr t2.arr c0.arr = none := by
      unfold checkFourier
      by_cases hl : t1.arr.dim.length = t2.arr.dim.length
      · rw [if_neg (by simpa using hl)]
        by_cases ha : (List.range t1.arr.dim.length).any (fun i => t1.arr.dim[i]? ≠ t2.arr.dim[i]?) = true
        · rw [if_pos ha]
        · rw [if_neg ha, if_pos]
          rcases h with h | h | h
          · exfalso
            apply h
            simp only [List.any_eq_true, List.mem_range, decide_eq_true_eq, not_exists, not_and, not_not] at ha
            apply List.ext_getElem?
            intro d
            by_cases hd : d < t1.arr.dim.length
            · exact ha d hd
            · rw [List.getElem?_eq_none (by omega), List.getElem?_eq_none (by omega)]
          · omega
          · rwa [List.getLast?_eq_getElem?] at h
      · rw [if_pos hl]
    rw [hck]
    unfold minNdim
    rw [if_pos hm]
    rfl
  · unfold minNdim
    rw [if_neg hm]
    rfl

end fourier

/-! ### Position of the Sun -/

section sun
open Verif.Sun Verif.Geo

theorem widest_fold : ∀ (l : List (List Nat)) (d : List Nat),
    (l.foldl (fun a b => if a.length < b.length then b else a) d ∈ d :: l) ∧
      ∀ e ∈ d :: l, e.length ≤ (l.foldl (fun a b => if a.length < b.length then b else a) d).length
  | [], d => by simp
  | b :: l, d => by
    rw [List.foldl_cons]
    obtain ⟨h1, h2⟩ := widest_fold l (if d.length < b.length then b else d)
    constructor
    · rcases List.mem_cons.mp h1 with h | h
      · rw [h]; split <;> simp
      · simp [h]
    · intro e he
      have hd := h2 _ List.mem_cons_self
      rcases List.mem_cons.mp he with rfl | he
      · refine le_trans ?_ hd
        split <;> omega
      · rcases List.mem_cons.mp he with rfl | he
        · refine le_trans ?_ hd
          split <;> omega
        · exact h2 e (by simp [he])

theorem equalShape_iff (d0 d1 : List Nat) : equalShape d0 d1 = true ↔ d0 = d1 := by
  unfold equalShape
  constructor
  · intro h
    split at h
    · simp at h
    · rename_i hl
      simp only [not_not] at hl
      simp only [List.all_eq_true, List.mem_range, decide_eq_true_eq] at h
      apply List.ext_getElem?
      intro d
      by_cases hd : d < d0.length
      · exact h d hd
      · rw [List.getElem?_eq_none (by omega), List.getElem?_eq_none (by omega)]
  · rintro rfl
    simp

/-- The check of the shapes. -/
theorem checkPoints_iff (l : List (List Nat)) (hl : l ≠ []) (dims : List Nat) :
    checkPoints l = some dims ↔ CommonShape dims l ∧ dims.length ≤ 15 := by
  obtain ⟨d, l', rfl⟩ : ∃ d l', l = d :: l' := by
    cases l with
    | nil => exact absurd rfl hl
    | cons d l' => exact ⟨d, l', rfl⟩
  obtain ⟨hm, hg⟩ := widest_fold l' d
  have hw : widest (d :: l') = l'.foldl (fun a b => if a.length < b.length then b else a) d := rfl
  rw [← hw] at hm hg
  unfold checkPoints
  simp only
  have hall : (d :: l').all (fun d' => d'.length = 0 || equalShape d' (widest (d :: l'))) = true ↔
      ∀ e ∈ d :: l', e = [] ∨ e = widest (d :: l') := by
    rw [List.all_eq_true]
    refine forall₂_congr (fun e _ => ?_)
    rw [Bool.or_eq_true, decide_eq_true_eq, equalShape_iff, List.length_eq_zero_iff]
  constructor
  · intro h
    split at h
    · simp at h
    · rename_i h15
      split at h
      · rename_i ha
        have := Option.some.inj h
        subst this
        exact ⟨⟨hm, hall.mp ha⟩, by unfold maxNdim at h15; omega⟩
      · simp at h
  · rintro ⟨⟨h1, h2⟩, h15⟩
    have he : widest (d :: l') = dims := by
      rcases h2 _ hm with h | h
      · have := hg dims h1
        rw [h] at this ⊢
        exact (List.length_eq_zero_iff.mp (by simpa using this)).symm
      · exact h
    rw [he] at hall ⊢
    rw [if_neg (by unfold maxNdim; omega), if_pos (hall.mpr h2)]

theorem common_prefix {dims d : List Nat} {l : List (List Nat)} (h : CommonShape dims l) (hd : d ∈ l) : d <+: dims := by
  rcases h.2 d hd with rfl | rfl
  · exact List.nil_prefix
  · exact List.prefix_rfl

theorem index_last {lead idx : List Nat} {n k : Nat} (h : Index lead idx) (hk : k < n) :
    Index (lead ++ [n]) (idx ++ [k]) := List.rel_append h (.cons hk .nil)

/-- Items of a new array made of blocks. -/
theorem blocks_new {A : Type} {lead : List Nat} {w : Nat} {F : List Nat → List A} (hF : ∀ i, (F i).length = w)
    {idx : List Nat} (hi : Index lead idx) {k : Nat} (hk : k < w) :
    elem (newArray (lead ++ [w]) ((indices lead).map F).flatten).mem
      (newArray (lead ++ [w]) ((indices lead).map F).flatten).arr.data
      (newArray (lead ++ [w]) ((indices lead).map F).flatten).arr.stride (idx ++ [k]) = (F idx)[k]? := by
  unfold elem newArray contiguous
  simp only
  rw [← offset_eq, ← rank_eq (index_last hi hk), zero_add, rank_append w k hi]
  unfold rdI rd
  rw [if_pos (by omega), Int.toNat_natCast, flatten_get w _ _ k (by
    intro b hb
    obtain ⟨i, -, rfl⟩ := List.mem_map.mp hb
    exact hF i) hk, List.getElem?_map, indices_rank hi]
  rfl

/-- The arrays of a function of a point. -/
theorem points_result {A : Type} (f : List A → Option (List A)) (junk : Nat → List A) (hj : ∀ n, (junk n).length = n)
    (l : List (NdArray A × List Nat × (List Nat → A))) (hne : l ≠ []) (h : ∀ e ∈ l, ItemsOf e.1 e.2.1 e.2.2)
    (F : List Nat → List A) (hF : ∀ i, (F i).length = 5) (dims : List Nat)
    (hf : ∀ idx, Index dims idx → f (l.map (fun e => e.2.2 (idx.take e.2.1.length))) = some (F idx))
    (hd : CommonShape dims (l.map (fun e => e.2.1))) (h15 : dims.length ≤ 15) :
    ∃ out, pointsArr f junk (l.map (fun e => e.1)) = .ok out ∧ out.arr.dim = dims ++ [5] ∧
      ∀ idx, Index dims idx → ∀ k < 5, elem out.mem out.arr.data out.arr.stride (idx ++ [k]) = (F idx)[k]? := by
  have hmap : (l.map (fun e => e.1)).map (fun a => a.arr.dim) = l.map (fun e => e.2.1) := by
    rw [List.map_map]
    exact List.map_congr_left (fun e he => (h e he).dim)
  have hck := (checkPoints_iff (l.map (fun e => e.2.1)) (by simpa using hne) dims).mpr ⟨hd, h15⟩
  have hr := pointsRec_eq l (lead := dims) (w := 5)
    (fun e he => ⟨h e he, common_prefix hd (List.mem_map.mpr ⟨e, he, rfl⟩)⟩) f F hf hF
    (junk (dims ++ [5]).prod) (hj _)
  refine ⟨_, ?_, rfl, fun idx hi k hk => blocks_new hF hi hk⟩
  unfold pointsArr
  rw [hmap, hck]
  simp only [orValueError, bind, Except.bind, List.map_map, Function.comp_def, hr, orMemory]
  rfl

theorem points_error {A : Type} (f : List A → Option (List A)) (junk : Nat → List A) (ins : List (NdArray A))
    (hne : ins ≠ []) (h : ∀ dims, CommonShape dims (ins.map (fun a => a.arr.dim)) → 15 < dims.length) :
    pointsArr f junk ins = .error .valueError := by
  unfold pointsArr
  cases hc : checkPoints (ins.map (fun a => a.arr.dim)) with
  | none => rfl
  | some dims =>
    obtain ⟨h1, h2⟩ := (checkPoints_iff _ (by simpa using hne) dims).mp hc
    exact absurd (h dims h1) (by omega)

/-- **C64** `sunpos`: each argument is a scalar or has the common shape; the result has that shape
followed by a dimension of the five coordinates, which are those of the items at the same index. -/
theorem C64_sunpos {K : Type} [Field K] [LinearOrder K] [FloorRing K] (L : Libm K) (tan : K → K)
    (junk : Nat → List K) (hj : ∀ n, (junk n).length = n)
    (mjd lat lon rad dtt : NdArray K) (d1 d2 d3 d4 d5 : List Nat) (M La Lo R D : List Nat → K)
    (h1 : ItemsOf mjd d1 M) (h2 : ItemsOf lat d2 La) (h3 : ItemsOf lon d3 Lo) (h4 : ItemsOf rad d4 R)
    (h5 : ItemsOf dtt d5 D) (dims : List Nat) (hd : CommonShape dims [d1, d2, d3, d4, d5])
    (h15 : dims.length ≤ 15) :
    ∃ out, sunposArr L tan junk mjd lat lon rad dtt = .ok out ∧ out.arr.dim = dims ++ [5] ∧
      ∀ idx, Index dims idx →
        let s := sunpos L tan (M (idx.take d1.length)) (La (idx.take d2.length)) (Lo (idx.take d3.length))
          (R (idx.take d4.length)) (D (idx.take d5.length))
        let item := fun k => elem out.mem out.arr.data out.arr.stride (idx ++ [k])
        item 0 = some s.decl ∧ item 1 = some s.rasc ∧ item 2 = some s.hang ∧ item 3 = some s.azimuth ∧
          item 4 = some s.zenith := by
  obtain ⟨out, e1, e2, e3⟩ := points_result (fun vs => match vs with
    | [m, la, lo, r, d] => some (sunItems (sunpos L tan m la lo r d))
    | _ => none) junk hj [(mjd, d1, M), (lat, d2, La), (lon, d3, Lo), (rad, d4, R), (dtt, d5, D)] (by simp)
    (by
      intro e he
      simp only [List.mem_cons, List.not_mem_nil, or_false] at he
      rcases he with rfl | rfl | rfl | rfl | rfl <;> assumption)
    (fun idx => sunItems (sunpos L tan (M (idx.take d1.length)) (La (idx.take d2.length)) (Lo (idx.take d3.length))
          (R (idx.take d4.length)) (D (idx.take d5.length)))) (fun _ => rfl) dims (fun _ _ => rfl) hd h15
  refine ⟨out, e1, e2, fun idx hi => ?_⟩
  exact ⟨e3 idx hi 0 (by omega), e3 idx hi 1 (by omega), e3 idx hi 2 (by omega), e3 idx hi 3 (by omega),
    e3 idx hi 4 (by omega)⟩

/-- **C64** `sunpos_original`. -/
theorem C64_sunpos_original {K : Type} [Field K] [LinearOrder K] [FloorRing K] (L : Libm K) (tan : K → K)
    (junk : Nat → List K) (hj : ∀ n, (junk n).length = n)
    (mjd lat lon rad dtt pres temp : NdArray K) (d1 d2 d3 d4 d5 d6 d7 : List Nat) (M La Lo R D Pr Te : List Nat → K)
    (h1 : ItemsOf mjd d1 M) (h2 : ItemsOf lat d2 La) (h3 : ItemsOf lon d3 Lo) (h4 : ItemsOf rad d4 R)
    (h5 : ItemsOf dtt d5 D) (h6 : ItemsOf pres d6 Pr) (h7 : ItemsOf temp d7 Te) (dims : List Nat)
    (hd : CommonShape dims [d1, d2, d3, d4, d5, d6, d7]) (h15 : dims.length ≤ 15) :
    ∃ out, sunposOriginalArr L tan junk mjd lat lon rad dtt pres temp = .ok out ∧ out.arr.dim = dims ++ [5] ∧
      ∀ idx, Index dims idx →
        let s := sunposOriginal L tan (M (idx.take d1.length)) (La (idx.take d2.length)) (Lo (idx.take d3.length))
          (R (idx.take d4.length)) (D (idx.take d5.length)) (Pr (idx.take d6.length)) (Te (idx.take d7.length))
        let item := fun k => elem out.mem out.arr.data out.arr.stride (idx ++ [k])
        item 0 = some s.decl ∧ item 1 = some s.rasc ∧ item 2 = some s.hang ∧ item 3 = some s.azimuth ∧
          item 4 = some s.zenith := by
  obtain ⟨out, e1, e2, e3⟩ := points_result (fun vs => match vs with
    | [m, la, lo, r, d, p, t] => some (sunItems (sunposOriginal L tan m la lo r d p t))
    | _ => none) junk hj [(mjd, d1, M), (lat, d2, La), (lon, d3, Lo), (rad, d4, R), (dtt, d5, D), (pres, d6, Pr),
      (temp, d7, Te)] (by simp)
    (by
      intro e he
      simp only [List.mem_cons, List.not_mem_nil, or_false] at he
      rcases he with rfl | rfl | rfl | rfl | rfl | rfl | rfl <;> assumption)
    (fun idx => sunItems (sunposOriginal L tan (M (idx.take d1.length)) (La (idx.take d2.length))
      (Lo (idx.take d3.length)) (R (idx.take d4.length)) (D (idx.take d5.length)) (Pr (idx.take d6.length))
      (Te (idx.take d7.length)))) (fun _ => rfl) dims (fun _ _ => rfl) hd h15
  refine ⟨out, e1, e2, fun idx hi => ?_⟩
  exact ⟨e3 idx hi 0 (by omega), e3 idx hi 1 (by omega), e3 idx hi 2 (by omega), e3 idx hi 3 (by omega),
    e3 idx hi 4 (by omega)⟩

/-- **C64** `sunpos` and `sunpos_original`: arguments which are neither scalars nor of one common
shape, or of more than 15 dimensions, are refused. -/
theorem C64_sunpos_rejects {K : Type} [Field K] [LinearOrder K] [FloorRing K] (L : Libm K) (tan : K → K)
    (junk : Nat → List K) (mjd lat lon rad dtt pres temp : NdArray K) :
    ((∀ dims, CommonShape dims [mjd.arr.dim, lat.arr.dim, lon.arr.dim, rad.arr.dim, dtt.arr.dim] → 15 < dims.length) →
      sunposArr L tan junk mjd lat lon rad dtt = .error .valueError) ∧
    ((∀ dims, CommonShape dims [mjd.arr.dim, lat.arr.dim, lon.arr.dim, rad.arr.dim, dtt.arr.dim, pres.arr.dim,
        temp.arr.dim] → 15 < dims.length) →
      sunposOriginalArr L tan junk mjd lat lon rad dtt pres temp = .error .valueError) :=
  ⟨fun h => points_error _ junk _ (by simp) h, fun h => points_error _ junk _ (by simp) h⟩

end sun

/-! ### Examples -/

theorem index_two {P : List Nat → Prop} {n m : Nat} (h : ∀ i < n, ∀ j < m, P [i, j]) :
    ∀ idx, Index [n, m] idx → P idx := by
  intro idx hi
  cases hi with
  | cons h1 h2 =>
    cases h2 with
    | cons h3 h4 =>
      cases h4
      exact h _ h1 _ h3

/-- Memory of the examples: six numbers. -/
def sixMem {A : Type} (l : List A) : Int → Option A := fun p => if 0 ≤ p then l[p.toNat]? else none

-- a transposed array of two rows and three columns, with the items 1, 3, 5 and 2, 4, 6
example : ItemsOf (⟨sixMem [1, 2, 3, 4, 5, 6], ⟨0, [2, 3], [1, 2]⟩⟩ : NdArray Int) [2, 3]
    (fun idx => 1 + idx.getD 0 0 + 2 * idx.getD 1 0) :=
  ⟨rfl, rfl, index_two (by decide)⟩

-- the same of decimal years with a negative stride of the rows
example : ItemsOf (⟨sixMem [.fin 2000, .nan, .fin 1999, .pinf], ⟨2, [2, 2], [-2, 1]⟩⟩ : NdArray (X Int)) [2, 2]
    (fun idx => if idx = [0, 0] then .fin 1999 else if idx = [0, 1] then .pinf else if idx = [1, 0] then .fin 2000
      else .nan) :=
  ⟨rfl, rfl, index_two (by decide)⟩

-- three nodes, three series over them, and kinds of interpolation with enough nodes
example : NodesOf (⟨sixMem [1, 2, 4], ⟨0, [3], [1]⟩⟩ : NdArray Int) [1, 2, 4] ∧
    SeriesOf (⟨sixMem [1, 2, 3, 4, 5, 6], ⟨0, [2, 1, 3], [3, 3, 1]⟩⟩ : NdArray Int) [2, 1] 3
      (fun idx => if idx = [0, 0] then [1, 2, 3] else [4, 5, 6]) ∧
    (∀ k, nodesNeeded k ≤ [1, 2, 4].length) := by
  refine ⟨⟨rfl, by decide⟩, ⟨rfl, ⟨[3, 3], rfl, rfl⟩, index_two (by decide), index_two ?_⟩, fun k => by
    cases k <;> decide⟩
  intro i hi j hj k v h
  have hj : j = 0 := by omega
  subst hj
  have hi : i = 0 ∨ i = 1 := by omega
  rcases hi with rfl | rfl
  all_goals
    have hk : k < 3 := (List.getElem?_eq_some_iff.mp h).1
    have hk : k = 0 ∨ k = 1 ∨ k = 2 := by omega
    rcases hk with rfl | rfl | rfl <;> cases h <;> rfl

-- one matrix of two rows and one column of pairs, at every index of the shape 2 x 1
example : MatricesOf (⟨sixMem [1, 2, 3, 4], ⟨0, [2, 1, 2, 1, 2], [0, 0, 2, 2, 1]⟩⟩ : NdArray Int) [2, 1] 2 1
    (fun _ i _ => 1 + 2 * i) (fun _ i _ => 2 + 2 * i) :=
  ⟨rfl, ⟨[0, 0], rfl, rfl⟩, index_two (by decide)⟩

-- times of the shape 2 x 3, one location and one offset
example : CommonShape [2, 3] [[2, 3], [], [], [2, 3], []] := ⟨by decide, by decide⟩

-- two shapes together are refused
example : ∀ dims, CommonShape dims [[2, 3], [2], [], [], []] → 15 < dims.length := by
  intro dims h
  have h1 := h.2 [2, 3] (by simp)
  have h2 := h.2 [2] (by simp)
  simp at h1 h2
  rw [← h1] at h2
  simp at h2

-- the result of a search in an array
example : ((bisectArr (fun n => List.replicate n 7) ⟨sixMem [1, 2, 4], ⟨0, [3], [1]⟩⟩
    ⟨sixMem [some 1, none, some 3, some 4], ⟨0, [2, 2], [1, 2]⟩⟩ 1).toOption.map
      (fun o => (o.arr.dim, (indices [2, 2]).map (fun i => elem o.mem o.arr.data o.arr.stride i))) :
        Option (List Nat × List (Option Int))) =
    some ([2, 2], [some 0, some 1, some (-1), some 2]) := by decide +kernel

end Verif.Props
