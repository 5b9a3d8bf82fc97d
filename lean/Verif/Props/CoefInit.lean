/-
C87: constructors of the sparse coefficients with arrays as arguments.
-/
import Verif.Model.CoefInit
import Verif.Props.VectorUtil
import Verif.Props.Coefficients

set_option linter.unusedSectionVars false

namespace Verif.Props

open Verif Verif.Spec Verif.Arr Verif.Coeffs Verif.Interp Verif.Field Verif.MioField Verif.VectorUtil Verif.CoefInit

/-! ### Lists -/

theorem ci_max {l : List Int} (h : l ≠ []) : ∃ a, l.max? = some a ∧ a ∈ l ∧ ∀ b ∈ l, b ≤ a := by
  cases hm : l.max? with
  | none => exact (h (List.max?_eq_none_iff.mp hm)).elim
  | some a => exact ⟨a, rfl, List.max?_eq_some_iff.mp hm⟩

theorem ci_min {l : List Int} (h : l ≠ []) : ∃ a, l.min? = some a ∧ a ∈ l ∧ ∀ b ∈ l, a ≤ b := by
  cases hm : l.min? with
  | none => exact (h (List.min?_eq_none_iff.mp hm)).elim
  | some a => exact ⟨a, rfl, List.min?_eq_some_iff.mp hm⟩

theorem ci_wrap {n : Int} (h1 : -2 ^ 31 ≤ n) (h2 : n < 2 ^ 31) : wrap32 n = n := by
  unfold wrap32
  omega

theorem ci_row {A : Type} (k : Nat) (T : List Nat → A) : (indices [k]).map T = (List.range k).map (fun j => T [j]) := by
  simp only [indices, List.map_cons, List.map_nil]
  rw [← List.map_eq_flatMap, List.map_map]
  rfl

theorem ci_rows {A : Type} (n k : Nat) (C : List Nat → A) : rowsOf n k ((indices [n, k]).map C) =
    (List.range n).map (fun i => (List.range k).map (fun j => C [i, j])) := by
  have := rows_flat [n] [k] C
  simp only [List.prod_singleton, List.singleton_append] at this
  rw [this, ci_row n]
  refine List.map_congr_left fun i _ => ?_
  rw [ci_row k]
  rfl

/-! ### The base class -/

/-- What the attributes of an object with the given indices are: the greatest and the least degree, the indices. -/
structure Describes (sp : SparseAttrs ℝ) (l : List Nat) (m : Nat) (I : List Nat → Int) : Prop where
  degree : IsGreatest {n | ∃ idx, Index l idx ∧ n = I (idx ++ [0])} sp.degree
  minDegree : IsLeast {n | ∃ idx, Index l idx ∧ n = I (idx ++ [0])} sp.minDegree
  nm : ∃ J, ItemsOf sp.nm (l ++ [m]) J ∧ ∀ idx, Index (l ++ [m]) idx → -2 ^ 31 ≤ I idx → I idx < 2 ^ 31 → J idx = I idx
  index : sp.index = (indices l).map (fun idx => (|I (idx ++ [1])| + I (idx ++ [0]) * (I (idx ++ [0]) + 1) / 2,
    decide (I (idx ++ [1]) < 0)))

theorem sparse_ok {d : NdArray Int} {l : List Nat} {m : Nat} {I : List Nat → Int} (hd : ItemsOf d (l ++ [m]) I) (hm : 2 ≤ m)
    (hl : 0 < l.prod) (kw : Keywords ℝ) :
    ∃ sp, sparseInit d kw = .ok sp ∧ Describes sp l m I ∧ sp.isInternal = kw.isInternal ∧
      sp.validity = convertedValidity (kw.start.getD none) (kw.stop.getD none) kw.toMjd := by
  obtain ⟨a1, a2⟩ := vu_last hd (k := 0) (by omega)
  obtain ⟨b1, b2⟩ := vu_last hd (k := 1) (by omega)
  have hne : (indices l).map (fun idx => I (idx ++ [0])) ≠ [] := by
    intro h
    have := congrArg List.length h
    rw [List.length_map, indices_length] at this
    rw [this] at hl
    simp at hl
  obtain ⟨x, x1, x2, x3⟩ := ci_max hne
  obtain ⟨y, y1, y2, y3⟩ := ci_min hne
  obtain ⟨nm, n1, n2⟩ := nd_map wrap32 hd
  refine ⟨⟨kw.isInternal, convertedValidity (kw.start.getD none) (kw.stop.getD none) kw.toMjd, x, y, nm,
    List.zipWith (fun n m => (rowIdx n m, colIdx m)) ((indices l).map (fun idx => I (idx ++ [0])))
      ((indices l).map (fun idx => I (idx ++ [1])))⟩, ?_, ?_, rfl, rfl⟩
  · unfold sparseInit
    simp only [a1, b1, except_ok_bind, nd_items a2, nd_items b2, called, x1, y1, n1]
    rfl
  · refine ⟨⟨?_, ?_⟩, ⟨?_, ?_⟩, ?_, ?_⟩
    · obtain ⟨i, hi, e⟩ := List.mem_map.mp x2
      exact ⟨i, mem_indices.mp hi, e.symm⟩
    · rintro _ ⟨i, hi, rfl⟩
      exact x3 _ (List.mem_map.mpr ⟨i, mem_indices.mpr hi, rfl⟩)
    · obtain ⟨i, hi, e⟩ := List.mem_map.mp y2
      exact ⟨i, mem_indices.mp hi, e.symm⟩
    · rintro _ ⟨i, hi, rfl⟩
      exact y3 _ (List.mem_map.mpr ⟨i, mem_indices.mpr hi, rfl⟩)
    · exact ⟨_, n2, fun idx _ h1 h2 => ci_wrap h1 h2⟩
    · simp only [List.zipWith_map, List.zipWith_self, rowIdx, colIdx]

theorem sparse_few {d : NdArray Int} {l : List Nat} {m : Nat} {I : List Nat → Int} (hd : ItemsOf d (l ++ [m]) I) (hm : m < 2)
    (kw : Keywords ℝ) : sparseInit d kw = .error (.shape .indexError) := by
  have h1 := vu_last_error hd.dim (k := 1) (by omega)
  unfold sparseInit
  rw [h1]
  unfold lastItem
  rw [hd.dim]
  simp only [List.getLast?_concat]
  split_ifs <;> rfl

theorem sparse_empty {d : NdArray Int} {l : List Nat} {m : Nat} {I : List Nat → Int} (hd : ItemsOf d (l ++ [m]) I) (hm : 2 ≤ m)
    (hl : l.prod = 0) (kw : Keywords ℝ) : sparseInit d kw = .error (.shape .valueError) := by
  obtain ⟨a1, a2⟩ := vu_last hd (k := 0) (by omega)
  obtain ⟨b1, b2⟩ := vu_last hd (k := 1) (by omega)
  have hne : (indices l).map (fun idx => I (idx ++ [0])) = [] := by
    rw [← List.length_eq_zero_iff, List.length_map, indices_length, hl]
  unfold sparseInit
  simp only [a1, b1, except_ok_bind, nd_items a2, nd_items b2, called, hne]
  rfl

/-! ### Time dependent coefficients -/

theorem ci_check {d : List Nat} (h : d.length = 2 ∨ d[1]? = some 2) : checkIndices d = .ok () := by
  unfold checkIndices
  rcases h with h | h
  · simp [h]
  · rw [h]
    simp

/-- The constructor behind the checks of the dimensions. -/
theorem init_steps {d : NdArray Int} {c t : NdArray (X ℝ)} {n k : Nat} {C T : List Nat → X ℝ} (hc : ItemsOf c [n, k] C)
    (ht : ItemsOf t [k] T) (hd : checkIndices d.arr.dim = .ok ()) (hn : d.arr.dim[0]? = some n) (so : Int) (kw : Keywords ℝ) :
    timeDependentInit d c t so kw = (
      let ts := (argsort ((List.range k).map (fun j => T [j]))).map (fun i => ((List.range k).map (fun j => T [j])).getD i .nan)
      match ts.head?, ts.getLast? with
      | some first, some last => do
        let sp ← sparseInit d { kw with start := some (kw.start.getD (some first)), stop := some (kw.stop.getD (some last)) }
        let rows := ((List.range n).map (fun i => (List.range k).map (fun j => C [i, j]))).map (fun row =>
          (argsort ((List.range k).map (fun j => T [j]))).map (fun i => row.getD i .nan))
        if so = 1 then .ok ⟨sp, ts.map (fun t => convertValue t kw.toMjd), rows, .c0⟩
        else if so = 2 then .ok ⟨sp, ts.map (fun t => convertValue t kw.toMjd), rows, .c1⟩
        else .error (.shape .valueError)
      | _, _ => .error (.shape .indexError)) := by
  unfold timeDependentInit
  rw [ht.dim, hc.dim, hd, hn, nd_items ht, nd_items hc, ci_row]
  simp only [List.length_cons, List.length_nil, ne_eq, not_true_eq_false, if_false, List.getElem?_cons_zero, List.getElem?_cons_succ,
    called, except_ok_bind, List.getD_cons_zero, List.getD_cons_succ, ci_rows]
  generalize (List.map (fun i => (List.map (fun j => T [j]) (List.range k)).getD i X.nan)
    (argsort (List.map (fun j => T [j]) (List.range k)))) = ts
  rcases ts.head? with _ | a <;> rcases ts.getLast? with _ | b <;> rfl

theorem argsort_length (ts : List (X ℝ)) : (argsort ts).length = ts.length := by
  unfold argsort
  rw [List.length_mergeSort, List.length_range]

theorem ci_ends {A : Type} {l : List A} (h : l ≠ []) : ∃ a b, l.head? = some a ∧ l.getLast? = some b :=
  ⟨_, _, List.head?_eq_some_head h, List.getLast?_eq_some_getLast h⟩

/-- The dimensions of the arrays accepted by the code. -/
structure AcceptedDims (dI dC dT : List Nat) (n k : Nat) (l : List Nat) (m : Nat) : Prop where
  times : dT = [k]
  coefficients : dC = [n, k]
  indices : dI = l ++ [m]
  rows : dI[0]? = some n
  checked : dI.length = 2 ∨ dI[1]? = some 2
  nodes : 0 < k
  columns : 2 ≤ m
  nonempty : 0 < l.prod

/-- **C87**, the exceptions of `SparseSHCoefficientsTimeDependent`. -/
theorem C87_errors (d : NdArray Int) (c t : NdArray (X ℝ)) (dI dC dT : List Nat) (I : List Nat → Int) (C T : List Nat → X ℝ)
    (hd : ItemsOf d dI I) (hc : ItemsOf c dC C) (ht : ItemsOf t dT T) (so : Int) (kw : Keywords ℝ) :
    (dT.length ≠ 1 ∨ dC.length ≠ 2 → timeDependentInit d c t so kw = .error (.shape .valueError)) ∧
    (dT.length = 1 → dC.length = 2 → dI.length < 2 → timeDependentInit d c t so kw = .error (.shape .indexError)) ∧
    (dT.length = 1 → dC.length = 2 → 2 < dI.length → dI[1]? ≠ some 2 →
      timeDependentInit d c t so kw = .error (.shape .valueError)) ∧
    (dT.length = 1 → dC.length = 2 → (dI.length = 2 ∨ dI[1]? = some 2) → dI[0]? ≠ dC[0]? ∨ dT[0]? ≠ dC[1]? →
      timeDependentInit d c t so kw = .error (.shape .valueError)) ∧
    (∀ n, dC = [n, 0] → dT = [0] → (dI.length = 2 ∨ dI[1]? = some 2) → dI[0]? = some n →
      timeDependentInit d c t so kw = .error (.shape .indexError)) ∧
    (∀ n k l m, dC = [n, k] → dT = [k] → 0 < k → dI = l ++ [m] → (dI.length = 2 ∨ dI[1]? = some 2) → dI[0]? = some n →
      (m < 2 → timeDependentInit d c t so kw = .error (.shape .indexError)) ∧
      (2 ≤ m → l.prod = 0 → timeDependentInit d c t so kw = .error (.shape .valueError)) ∧
      (2 ≤ m → 0 < l.prod → so ≠ 1 → so ≠ 2 → timeDependentInit d c t so kw = .error (.shape .valueError))) := by
  refine ⟨?_, ?_, ?_, ?_, ?_, ?_⟩
  · intro h
    unfold timeDependentInit
    rw [ht.dim, hc.dim]
    rcases h with h | h
    · rw [if_pos h]; rfl
    · rw [if_pos h]
      split_ifs <;> rfl
  · intro h1 h2 h3
    unfold timeDependentInit
    rw [ht.dim, hc.dim, hd.dim, if_neg (not_not.mpr h1), if_neg (not_not.mpr h2)]
    have : checkIndices dI = .error (.shape .indexError) := by
      unfold checkIndices
      rw [if_pos (by omega), List.getElem?_eq_none (by omega)]
      rfl
    rw [this]
    rfl
  · intro h1 h2 h3 h4
    unfold timeDependentInit
    rw [ht.dim, hc.dim, hd.dim, if_neg (not_not.mpr h1), if_neg (not_not.mpr h2)]
    have : checkIndices dI = .error (.shape .valueError) := by
      unfold checkIndices
      rw [if_pos (by omega)]
      rw [List.getElem?_eq_getElem (by omega)] at h4 ⊢
      simp only
      rw [if_pos (by simpa using h4)]
      rfl
    rw [this]
    rfl
  · intro h1 h2 h3 h4
    unfold timeDependentInit
    rw [ht.dim, hc.dim, hd.dim, if_neg (not_not.mpr h1), if_neg (not_not.mpr h2), ci_check h3, except_ok_bind]
    rcases h4 with h | h
    · rw [if_pos h]; rfl
    · rw [if_pos h]
      split_ifs <;> rfl
  · rintro n rfl rfl h3 h4
    rw [init_steps hc ht (by rw [hd.dim]; exact ci_check h3) (by rw [hd.dim]; exact h4)]
    have : argsort ((List.range 0).map (fun j => T [j])) = [] := by
      rw [← List.length_eq_zero_iff, argsort_length]
      simp
    simp only [this]
    rfl
  · rintro n k l m rfl rfl hk rfl h3 h4
    have e := init_steps hc ht (by rw [hd.dim]; exact ci_check h3) (by rw [hd.dim]; exact h4) so kw
    obtain ⟨a, b, ha, hb⟩ := ci_ends (l := (argsort ((List.range k).map (fun j => T [j]))).map
      (fun i => ((List.range k).map (fun j => T [j])).getD i .nan)) (by
        intro h
        have := congrArg List.length h
        simp [argsort_length] at this
        omega)
    simp only [ha, hb] at e
    refine ⟨fun h => ?_, fun h h' => ?_, fun h h' h1 h2 => ?_⟩
    · rw [e, sparse_few hd h]; rfl
    · rw [e, sparse_empty hd h h']; rfl
    · obtain ⟨sp, s1, -⟩ := sparse_ok hd h h' { kw with
        start := some (kw.start.getD (some a)), stop := some (kw.stop.getD (some b)) }
      rw [e, s1, except_ok_bind, if_neg h1, if_neg h2]

/-- **C87**, exactly these arrays are accepted.  Missing of the full claim (false of the code, `C87_indices_not_checked`): the
refusal of indices of a shape other than (n, 2). -/
theorem C87_accepted_partial (d : NdArray Int) (c t : NdArray (X ℝ)) (dI dC dT : List Nat) (I : List Nat → Int) (C T : List Nat → X ℝ)
    (hd : ItemsOf d dI I) (hc : ItemsOf c dC C) (ht : ItemsOf t dT T) (so : Int) (kw : Keywords ℝ) :
    (∃ o, timeDependentInit d c t so kw = .ok o) ↔ (∃ n k l m, AcceptedDims dI dC dT n k l m) ∧ (so = 1 ∨ so = 2) := by
  obtain ⟨e1, e2, e3, e4, e5, e6⟩ := C87_errors d c t dI dC dT I C T hd hc ht so kw
  constructor
  · rintro ⟨o, ho⟩
    have no : ∀ {x : Failure}, timeDependentInit d c t so kw ≠ .error x := by
      intro x h
      rw [ho] at h
      cases h
    have h1 : dT.length = 1 := by by_contra h; exact no (e1 (.inl h))
    have h2 : dC.length = 2 := by by_contra h; exact no (e1 (.inr h))
    have h3 : 2 ≤ dI.length := by by_contra h; exact no (e2 h1 h2 (by omega))
    have h4 : dI.length = 2 ∨ dI[1]? = some 2 := by
      by_contra h
      push Not at h
      exact no (e3 h1 h2 (by have := h.1; omega) h.2)
    have h5 : dI[0]? = dC[0]? ∧ dT[0]? = dC[1]? := by
      constructor
      · by_contra h; exact no (e4 h1 h2 h4 (.inl h))
      · by_contra h; exact no (e4 h1 h2 h4 (.inr h))
    obtain ⟨k, rfl⟩ := List.length_eq_one_iff.mp h1
    obtain ⟨n, k', rfl⟩ := List.length_eq_two.mp h2
    obtain ⟨h6, h7⟩ := h5
    simp only [List.getElem?_cons_zero, List.getElem?_cons_succ, Option.some.injEq] at h6 h7
    subst h7
    obtain ⟨l, m, hlm⟩ : ∃ l m, dI = l ++ [m] := by
      rw [← List.dropLast_append_getLast (l := dI) (by intro h0; rw [h0] at h3; simp at h3)]
      exact ⟨_, _, rfl⟩
    have hk : 0 < k := by
      rcases Nat.eq_zero_or_pos k with rfl | h
      · exact (no (e5 n rfl rfl h4 h6)).elim
      · exact h
    obtain ⟨f1, f2, f3⟩ := e6 n k l m rfl rfl hk hlm h4 h6
    have hm : 2 ≤ m := by by_contra h; exact no (f1 (by omega))
    have hp : 0 < l.prod := by
      rcases Nat.eq_zero_or_pos l.prod with h | h
      · exact (no (f2 hm h)).elim
      · exact h
    refine ⟨⟨n, k, l, m, rfl, rfl, hlm, h6, h4, hk, hm, hp⟩, ?_⟩
    by_contra h
    push Not at h
    exact no (f3 hm hp h.1 h.2)
  · rintro ⟨⟨n, k, l, m, rfl, rfl, rfl, h6, h4, hk, hm, hp⟩, hso⟩
    have e := init_steps hc ht (by rw [hd.dim]; exact ci_check h4) (by rw [hd.dim]; exact h6) so kw
    obtain ⟨a, b, ha, hb⟩ := ci_ends (l := (argsort ((List.range k).map (fun j => T [j]))).map
      (fun i => ((List.range k).map (fun j => T [j])).getD i .nan)) (by
        intro h
        have := congrArg List.length h
        simp [argsort_length] at this
        omega)
    simp only [ha, hb] at e
    obtain ⟨sp, s1, -⟩ := sparse_ok hd hm hp { kw with
      start := some (kw.start.getD (some a)), stop := some (kw.stop.getD (some b)) }
    rw [e, s1, except_ok_bind]
    rcases hso with rfl | rfl
    · exact ⟨_, if_pos rfl⟩
    · exact ⟨_, (if_neg (by omega)).trans (if_pos rfl)⟩

/-! ### The objects -/

/-- Application of an optional conversion. -/
def viaOption (f : Option (X ℝ → X ℝ)) (x : X ℝ) : X ℝ := f.elim x (fun g => g x)

theorem via_convert (f : Option (X ℝ → X ℝ)) (x : X ℝ) : convertValue x f = viaOption f x := by
  cases f <;> rfl

/-- **C87**, the objects of `SparseSHCoefficientsTimeDependent`: degrees, indices, nodes in the order of time with their
coefficients, validity. -/
theorem C87_object (d : NdArray Int) (c t : NdArray (X ℝ)) (n k : Nat) (l : List Nat) (m : Nat) (I : List Nat → Int)
    (C : List Nat → X ℝ) (τ : Nat → ℝ) (hd : ItemsOf d (l ++ [m]) I) (hc : ItemsOf c [n, k] C)
    (ht : ItemsOf t [k] (fun idx => .fin (τ (idx.headD 0)))) (ha : AcceptedDims (l ++ [m]) [n, k] [k] n k l m)
    (hinj : ∀ i < k, ∀ j < k, τ i = τ j → i = j) (so : Int) (hso : so = 1 ∨ so = 2) (kw : Keywords ℝ) :
    ∃ o, ∃ σ : List Nat, ∃ first last, timeDependentInit d c t so kw = .ok o ∧ Describes o.toSparseAttrs l m I ∧
      o.isInternal = kw.isInternal ∧ (o.kind = if so = 1 then .c0 else .c1) ∧
      σ.Perm (List.range k) ∧ (σ.map τ).Pairwise (· < ·) ∧
      o.times = σ.map (fun j => viaOption kw.toMjd (.fin (τ j))) ∧
      o.coeff = (List.range n).map (fun i => σ.map (fun j => C [i, j])) ∧
      first < k ∧ last < k ∧ (∀ j < k, τ first ≤ τ j ∧ τ j ≤ τ last) ∧
      o.validity.1 = viaOption kw.toMjd ((kw.start.getD (some (.fin (τ first)))).getD .ninf) ∧
      o.validity.2 = viaOption kw.toMjd ((kw.stop.getD (some (.fin (τ last)))).getD .pinf) := by
  have e := init_steps hc ht (by rw [hd.dim]; exact ci_check ha.checked) (by rw [hd.dim]; exact ha.rows) so kw
  have hts : (List.range k).map (fun j => X.fin (τ (List.headD [j] 0))) = ((List.range k).map τ).map X.fin := by
    simp [Function.comp_def]
  have hnd : ((List.range k).map τ).Nodup := by
    rw [List.nodup_map_iff_inj_on List.nodup_range]
    intro i hi j hj
    exact hinj i (List.mem_range.mp hi) j (List.mem_range.mp hj)
  obtain ⟨p1, p2⟩ := argsort_spec _ hnd
  rw [List.length_map, List.length_range] at p1
  simp only [hts] at e
  generalize argsort (((List.range k).map τ).map X.fin) = σ at *
  have hlt : ∀ i ∈ σ, i < k := fun i hi => List.mem_range.mp (p1.mem_iff.mp hi)
  have m1 : σ.map (fun i => (((List.range k).map τ).map X.fin).getD i .nan) = σ.map (fun j => X.fin (τ j)) := by
    refine List.map_congr_left fun i hi => ?_
    simp [List.getD_eq_getElem?_getD, hlt i hi]
  have m2 : σ.map (fun i => ((List.range k).map τ).getD i 0) = σ.map τ := by
    refine List.map_congr_left fun i hi => ?_
    simp [List.getD_eq_getElem?_getD, hlt i hi]
  have m3 : ((List.range n).map (fun i => (List.range k).map (fun j => C [i, j]))).map (fun row =>
      σ.map (fun i => row.getD i X.nan)) = (List.range n).map (fun i => σ.map (fun j => C [i, j])) := by
    rw [List.map_map]
    refine List.map_congr_left fun i _ => List.map_congr_left fun j hj => ?_
    simp [List.getD_eq_getElem?_getD, hlt j hj]
  rw [m2] at p2
  simp only [m1, m3] at e
  have hne : σ ≠ [] := by
    intro h
    have := p1.length_eq
    rw [h] at this
    simp at this
    have := ha.nodes
    omega
  have h1 : (σ.map (fun j => X.fin (τ j))).head? = some (.fin (τ (σ.head hne))) := by
    rw [List.head?_map, List.head?_eq_some_head hne]; rfl
  have h2 : (σ.map (fun j => X.fin (τ j))).getLast? = some (.fin (τ (σ.getLast hne))) := by
    rw [List.getLast?_map, List.getLast?_eq_some_getLast hne]; rfl
  simp only [h1, h2] at e
  obtain ⟨sp, s1, s2, s3, s4⟩ := sparse_ok hd ha.columns ha.nonempty { kw with
    start := some (kw.start.getD (some (.fin (τ (σ.head hne))))), stop := some (kw.stop.getD (some (.fin (τ (σ.getLast hne))))) }
  rw [s1, except_ok_bind] at e
  have mono : ∀ j < k, τ (σ.head hne) ≤ τ j ∧ τ j ≤ τ (σ.getLast hne) := by
    intro j hj
    have hmem : j ∈ σ := p1.mem_iff.mpr (List.mem_range.mpr hj)
    have hp : σ.Pairwise (fun a b => τ a < τ b) := List.pairwise_map.mp p2
    constructor
    · obtain ⟨a, r, rfl⟩ := List.exists_cons_of_ne_nil hne
      rcases List.mem_cons.mp hmem with rfl | h
      · exact le_refl _
      · exact ((List.pairwise_cons.mp hp).1 j h).le
    · rw [← List.dropLast_append_getLast hne] at hp hmem
      rcases List.mem_append.mp hmem with h | h
      · exact ((List.pairwise_append.mp hp).2.2 j h _ (by simp)).le
      · rw [List.mem_singleton.mp h]
  have hv1 : sp.validity.1 = viaOption kw.toMjd ((kw.start.getD (some (.fin (τ (σ.head hne))))).getD .ninf) := by
    rw [s4, ← via_convert]; rfl
  have hv2 : sp.validity.2 = viaOption kw.toMjd ((kw.stop.getD (some (.fin (τ (σ.getLast hne))))).getD .pinf) := by
    rw [s4, ← via_convert]; rfl
  have ht' : (σ.map (fun j => X.fin (τ j))).map (fun t => convertValue t kw.toMjd) =
      σ.map (fun j => viaOption kw.toMjd (.fin (τ j))) := by
    rw [List.map_map]
    exact List.map_congr_left fun j _ => via_convert _ _
  refine ⟨⟨sp, σ.map (fun j => viaOption kw.toMjd (.fin (τ j))), (List.range n).map (fun i => σ.map (fun j => C [i, j])),
    if so = 1 then .c0 else .c1⟩, σ, σ.head hne, σ.getLast hne, ?_, s2, s3, rfl, p1, p2, rfl, rfl,
    hlt _ (List.head_mem hne), hlt _ (List.getLast_mem hne), mono, hv1, hv2⟩
  rw [e, ht']
  rcases hso with rfl | rfl
  · rfl
  · rfl

/-- **C87**, the object evaluated elsewhere (C12): the lists of the indices, of the coefficients and of the times of
two-dimensional arrays. -/
theorem C87_evaluated (d : NdArray Int) (c t : NdArray (X ℝ)) (n k m : Nat) (I : List Nat → Int) (C T : List Nat → X ℝ)
    (hd : ItemsOf d [n, m] I) (hc : ItemsOf c [n, k] C) (ht : ItemsOf t [k] T) (so : Int) (kw : Keywords ℝ)
    (hkw : kw.toMjd = none) (o : TimeDependent ℝ) (ho : timeDependentInit d c t so kw = .ok o) :
    mkTimeDep ((List.range n).map (fun i => (I [i, 0], I [i, 1]))) ((List.range n).map (fun i => (List.range k).map (fun j => C [i, j])))
      ((List.range k).map (fun j => T [j])) so =
        some ⟨o.times, ((List.range n).map (fun i => (I [i, 0], I [i, 1]))).zip o.coeff, o.kind⟩ := by
  have e := init_steps hc ht (by rw [hd.dim]; exact ci_check (.inl rfl)) (by rw [hd.dim]; rfl) so kw
  rw [ho] at e
  unfold mkTimeDep
  rw [if_neg (by simp), if_neg (by simp)]
  have hid : ∀ l : List (X ℝ), l.map (fun t => convertValue t kw.toMjd) = l := by
    intro l
    rw [hkw]
    exact List.map_id' l
  simp only [hid] at e
  generalize hts : (argsort ((List.range k).map (fun j => T [j]))).map (fun i => ((List.range k).map (fun j => T [j])).getD i .nan) = ts at *
  rcases h1 : ts.head? with _ | a
  · rw [h1] at e; cases e
  · rcases h2 : ts.getLast? with _ | b
    · rw [h1, h2] at e; cases e
    · simp only [h1, h2] at e
      cases hs : sparseInit d { kw with start := some (kw.start.getD (some a)), stop := some (kw.stop.getD (some b)) } with
      | error x => rw [hs] at e; cases e
      | ok sp =>
        rw [hs, except_ok_bind] at e
        split_ifs at e with c1 c2
        · cases e; rw [if_pos c1, hts]
        · cases e; rw [if_neg c1, if_pos c2, hts]

/-- **C87**, `SparseSHCoefficientsConstant`: one node at minus infinity, valid at all times unless stated otherwise. -/
theorem C87_constant (d : NdArray Int) (c : NdArray (X ℝ)) (n : Nat) (l : List Nat) (m : Nat) (I : List Nat → Int)
    (C : List Nat → X ℝ) (hd : ItemsOf d (l ++ [m]) I) (hc : ItemsOf c [n] C) (hn : (l ++ [m])[0]? = some n)
    (hck : (l ++ [m]).length = 2 ∨ (l ++ [m])[1]? = some 2) (hm : 2 ≤ m) (hl : 0 < l.prod) (kw : Keywords ℝ) :
    ∃ o, constantInit d c kw = .ok o ∧ Describes o.toSparseAttrs l m I ∧ o.isInternal = kw.isInternal ∧ o.kind = .c0 ∧
      o.times = [viaOption kw.toMjd .ninf] ∧ o.coeff = (List.range n).map (fun i => [C [i]]) ∧
      o.validity.1 = viaOption kw.toMjd ((kw.start.getD none).getD .ninf) ∧
      o.validity.2 = viaOption kw.toMjd ((kw.stop.getD none).getD .pinf) := by
  have hc' : ItemsOf (newArray ([n] ++ [1]) ((indices [n]).map C)) [n, 1] (fun idx => C (idx.take 1)) := by
    have h : (indices [n]).map C = (indices [n, 1]).map (fun idx => C (idx.take 1)) := by
      have h2 : indices [n, 1] = (List.range n).map (fun i => [i, 0]) := by
        simp [indices, List.map_eq_flatMap]
      rw [ci_row, h2, List.map_map]
      rfl
    rw [h]
    exact items_new _
  have ht : ItemsOf (newArray [1] [X.ninf]) [1] (fun _ => (X.ninf : X ℝ)) :=
    items_new (dims := [1]) (fun _ => (X.ninf : X ℝ))
  have e := init_steps hc' ht (by rw [hd.dim]; exact ci_check hck) (by rw [hd.dim]; exact hn) 1
    { kw with start := some (kw.start.getD (some .ninf)), stop := some (kw.stop.getD (some .pinf)) }
  have hs : argsort ((List.range 1).map (fun _ => (X.ninf : X ℝ))) = [0] := by
    unfold argsort
    simp
  simp only [hs] at e
  obtain ⟨sp, s1, s2, s3, s4⟩ := sparse_ok hd hm hl { kw with
    start := some (kw.start.getD (some .ninf)), stop := some (kw.stop.getD (some .pinf)) }
  have h0 : [0].map (fun i => ((List.range 1).map (fun _ => (X.ninf : X ℝ))).getD i .nan) = [X.ninf] := rfl
  simp only [h0, List.head?_cons, List.getLast?_singleton, Option.getD_some, s1, except_ok_bind, if_true] at e
  refine ⟨⟨sp, [viaOption kw.toMjd .ninf], (List.range n).map (fun i => [C [i]]), .c0⟩, ?_, s2, s3, rfl, rfl, rfl, ?_, ?_⟩
  · unfold constantInit
    rw [hc.dim, hd.dim, ci_check hck, hn, nd_items hc]
    simp only [List.length_cons, List.length_nil, ne_eq, not_true_eq_false, if_false, List.getElem?_cons_zero, called, except_ok_bind]
    refine e.trans ?_
    simp only [List.map_map, List.map_cons, List.map_nil, via_convert]
    congr 2
  · rw [s4]
    show convertValue _ _ = _
    rw [via_convert]
    cases kw.start <;> rfl
  · rw [s4]
    show convertValue _ _ = _
    rw [via_convert]
    cases kw.stop <;> rfl

/-- **C87**, `SparseSHCoefficientsTimeDependentDecimalYear`: the nodes stay in decimal years, the validity is converted. -/
theorem C87_decimal_year (d : NdArray Int) (c t : NdArray (X ℝ)) (so : Int) (kw : Keywords ℝ) (o : TimeDependent ℝ) :
    decimalYearInit d c t so kw = .ok o ↔ ∃ p, timeDependentInit d c t so { kw with toMjd := none } = .ok p ∧
      o = { p with validity := (viaOption kw.toMjd p.validity.1, viaOption kw.toMjd p.validity.2) } := by
  unfold decimalYearInit
  cases h : timeDependentInit d c t so { kw with toMjd := none } with
  | error x => simp [bind, Except.bind]
  | ok p =>
    simp only [except_ok_bind, Except.ok.injEq, exists_eq_left', convertedValidity, via_convert, Option.getD_some]
    exact ⟨fun h => (Except.ok.inj h).symm, fun h => by rw [h]; rfl⟩

/-- **C87**, the exceptions of `SparseSHCoefficientsConstant`. -/
theorem C87_constant_errors (d : NdArray Int) (c : NdArray (X ℝ)) (dI dC : List Nat) (I : List Nat → Int) (C : List Nat → X ℝ)
    (hd : ItemsOf d dI I) (hc : ItemsOf c dC C) (kw : Keywords ℝ) :
    (dC.length ≠ 1 → constantInit d c kw = .error (.shape .valueError)) ∧
    (dC.length = 1 → dI.length < 2 → constantInit d c kw = .error (.shape .indexError)) ∧
    (dC.length = 1 → 2 < dI.length → dI[1]? ≠ some 2 → constantInit d c kw = .error (.shape .valueError)) ∧
    (dC.length = 1 → (dI.length = 2 ∨ dI[1]? = some 2) → dI[0]? ≠ dC[0]? → constantInit d c kw = .error (.shape .valueError)) := by
  unfold constantInit
  rw [hd.dim, hc.dim]
  refine ⟨fun h => if_pos h, ?_, ?_, ?_⟩
  · intro h h2
    rw [if_neg (by omega)]
    unfold checkIndices
    rw [if_pos (by omega), List.getElem?_eq_none (by omega)]
    rfl
  · intro h h2 h3
    rw [if_neg (by omega)]
    unfold checkIndices
    rw [if_pos (by omega), List.getElem?_eq_getElem (by omega)]
    rw [List.getElem?_eq_getElem (by omega)] at h3
    simp only
    rw [if_pos (by simpa using h3)]
    rfl
  · intro h h2 h3
    rw [if_neg (by omega), ci_check h2, except_ok_bind, if_pos h3]
    rfl

/-- **C87**, the MIO coefficients: the arrays accepted, the object. -/
theorem C87_mio (d : NdArray Int) (l : List Nat) (m : Nat) (I : List Nat → Int) (hd : ItemsOf d (l ++ [m]) I) (ps : Int × Int × Int × Int)
    (kw : Keywords ℝ) :
    (m < 2 → mioInit d ps kw = .error (.failure (.shape .indexError))) ∧
    (2 ≤ m → l.prod = 0 → mioInit d ps kw = .error (.failure (.shape .valueError))) ∧
    (2 ≤ m → 0 < l.prod → (ps.2.1 < ps.1 ∨ ps.2.2.2 < ps.2.2.1) → mioInit d ps kw = .error .extent) ∧
    (2 ≤ m → 0 < l.prod → ps.1 ≤ ps.2.1 → ps.2.2.1 ≤ ps.2.2.2 → ∃ sp, mioInit d ps kw = .ok (sp, ps) ∧ Describes sp l m I ∧
      sp.isInternal = kw.isInternal ∧ sp.validity.1 = viaOption kw.toMjd ((kw.start.getD none).getD .ninf) ∧
      sp.validity.2 = viaOption kw.toMjd ((kw.stop.getD none).getD .pinf)) := by
  obtain ⟨p, q, r, s⟩ := ps
  unfold mioInit
  refine ⟨?_, ?_, ?_, ?_⟩
  · intro h
    rw [sparse_few hd h]
  · intro h h2
    rw [sparse_empty hd h h2]
  · intro h h2 h3
    obtain ⟨sp, h4, -⟩ := sparse_ok hd h h2 kw
    rw [h4]
    exact if_pos h3
  · intro h h2 h3 h5
    obtain ⟨sp, h4, h6, h7, h8⟩ := sparse_ok hd h h2 kw
    rw [h4]
    refine ⟨sp, if_neg ?_, h6, h7, ?_, ?_⟩
    · simp only at h3 h5
      omega
    · rw [h8, convertedValidity, via_convert]
    · rw [h8, convertedValidity, via_convert, via_convert]

/-- Indices of two coefficients. -/
example (b : Bool) : ∃ sp, mioInit (newArray [2, 2] ((indices [2, 2]).map (fun _ => (1 : Int)))) (0, 4, -2, 2)
    (⟨none, none, none, b⟩ : Keywords ℝ) = .ok (sp, 0, 4, -2, 2) ∧ sp.validity = (.ninf, .pinf) := by
  obtain ⟨sp, h, -, -, h1, h2⟩ := (C87_mio _ [2] 2 (fun _ => 1) (items_new _) (0, 4, -2, 2) (⟨none, none, none, b⟩ : Keywords ℝ)).2.2.2
    (by omega) (by simp) (by simp) (by simp)
  exact ⟨sp, h, Prod.ext h1 h2⟩

/-- **C87**, the check of the dimensions of the indices combines two conditions by `and` where `or` is meant: indices with
more than two columns, or of three dimensions, are accepted, indices with one column or one dimension raise `IndexError` in
place of `ValueError`. -/
theorem C87_indices_not_checked (so : Int) (hso : so = 1 ∨ so = 2) (kw : Keywords ℝ) (C T : List Nat → X ℝ) (I : List Nat → Int) :
    (∃ o, timeDependentInit (newArray [1, 3] ((indices [1, 3]).map I)) (newArray [1, 2] ((indices [1, 2]).map C))
      (newArray [2] ((indices [2]).map T)) so kw = .ok o) ∧
    (∃ o, timeDependentInit (newArray [1, 2, 2] ((indices [1, 2, 2]).map I)) (newArray [1, 2] ((indices [1, 2]).map C))
      (newArray [2] ((indices [2]).map T)) so kw = .ok o) ∧
    timeDependentInit (newArray [2] ((indices [2]).map I)) (newArray [2, 2] ((indices [2, 2]).map C))
      (newArray [2] ((indices [2]).map T)) so kw = .error (.shape .indexError) ∧
    timeDependentInit (newArray [2, 1] ((indices [2, 1]).map I)) (newArray [2, 2] ((indices [2, 2]).map C))
      (newArray [2] ((indices [2]).map T)) so kw = .error (.shape .indexError) := by
  refine ⟨?_, ?_, ?_, ?_⟩
  · exact (C87_accepted_partial _ _ _ _ _ _ I C T (items_new _) (items_new _) (items_new _) so kw).mpr
      ⟨⟨1, 2, [1], 3, rfl, rfl, rfl, rfl, .inl rfl, by omega, by omega, by simp⟩, hso⟩
  · exact (C87_accepted_partial _ _ _ _ _ _ I C T (items_new _) (items_new _) (items_new _) so kw).mpr
      ⟨⟨1, 2, [1, 2], 2, rfl, rfl, rfl, rfl, .inr rfl, by omega, by omega, by simp⟩, hso⟩
  · exact (C87_errors _ _ _ _ _ _ I C T (items_new _) (items_new _) (items_new _) so kw).2.1 rfl rfl (by simp)
  · exact ((C87_errors _ _ _ _ _ _ I C T (items_new _) (items_new _) (items_new _) so kw).2.2.2.2.2 2 2 [2] 1 rfl rfl (by omega) rfl
      (.inl rfl) rfl).1 (by omega)

/-- **C87**, `None` is not the same as an argument which is not given: the validity is unlimited in place of the range of the
nodes. -/
theorem C87_none (d : NdArray Int) (c t : NdArray (X ℝ)) (n k : Nat) (l : List Nat) (m : Nat) (I : List Nat → Int)
    (C : List Nat → X ℝ) (τ : Nat → ℝ) (hd : ItemsOf d (l ++ [m]) I) (hc : ItemsOf c [n, k] C)
    (ht : ItemsOf t [k] (fun idx => .fin (τ (idx.headD 0)))) (ha : AcceptedDims (l ++ [m]) [n, k] [k] n k l m)
    (hinj : ∀ i < k, ∀ j < k, τ i = τ j → i = j) (so : Int) (hso : so = 1 ∨ so = 2) (b : Bool) :
    (∃ o, timeDependentInit d c t so ⟨some none, some none, none, b⟩ = .ok o ∧ o.validity = (.ninf, .pinf)) ∧
    ∃ o x y, timeDependentInit d c t so ⟨none, none, none, b⟩ = .ok o ∧ o.validity = (.fin x, .fin y) ∧
      IsLeast (τ '' Set.Iio k) x ∧ IsGreatest (τ '' Set.Iio k) y := by
  constructor
  · obtain ⟨o, σ, f, g, h, -, -, -, -, -, -, -, -, -, -, h1, h2⟩ :=
      C87_object d c t n k l m I C τ hd hc ht ha hinj so hso ⟨some none, some none, none, b⟩
    exact ⟨o, h, Prod.ext h1 h2⟩
  · obtain ⟨o, σ, f, g, h, -, -, -, -, -, -, -, hf, hg, hfg, h1, h2⟩ :=
      C87_object d c t n k l m I C τ hd hc ht ha hinj so hso ⟨none, none, none, b⟩
    refine ⟨o, τ f, τ g, h, Prod.ext h1 h2, ⟨⟨f, hf, rfl⟩, ?_⟩, ⟨g, hg, rfl⟩, ?_⟩
    · rintro _ ⟨j, hj, rfl⟩
      exact (hfg j hj).1
    · rintro _ ⟨j, hj, rfl⟩
      exact (hfg j hj).2

/-! ### Concrete cases -/

/-- Nodes given in the opposite order. -/
example (b : Bool) : ∃ o, timeDependentInit (newArray [2, 2] ((indices [2, 2]).map (fun idx => ([1, 0, 2, -1] : List Int).getD (rank [2, 2] idx) 0)))
      (newArray [2, 3] ((indices [2, 3]).map (fun idx => X.fin ((rank [2, 3] idx : ℕ) : ℝ))))
      (newArray [3] ((indices [3]).map (fun idx => X.fin (10 - (idx.headD 0 : ℕ) : ℝ)))) 2 ⟨none, none, none, b⟩ = .ok o ∧
    o.degree = 2 ∧ o.minDegree = 1 := by
  obtain ⟨o, σ, f, g, h, hd, -⟩ := C87_object _ _ _ 2 3 [2] 2 (fun idx => ([1, 0, 2, -1] : List Int).getD (rank [2, 2] idx) 0)
    (fun idx => X.fin ((rank [2, 3] idx : ℕ) : ℝ)) (fun j => (10 - j : ℝ)) (items_new _) (items_new _) (items_new _)
    ⟨rfl, rfl, rfl, rfl, .inl rfl, by omega, by omega, by simp⟩
    (fun i _ j _ h => by
      have h : (10 - i : ℝ) = 10 - j := h
      have : (i : ℝ) = j := by linarith
      exact_mod_cast this) 2 (.inr rfl) ⟨none, none, none, b⟩
  have key : ∀ x : Int, (∃ idx, Index [2] idx ∧ x = ([1, 0, 2, -1] : List Int).getD (rank [2, 2] (idx ++ [0])) 0) ↔ x = 1 ∨ x = 2 := by
    intro x
    constructor
    · rintro ⟨idx, hi, rfl⟩
      have := mem_indices.mpr hi
      simp [indices, List.range_succ] at this
      rcases this with rfl | rfl
      · left; rfl
      · right; rfl
    · rintro (rfl | rfl)
      · exact ⟨[0], .cons (by omega) .nil, rfl⟩
      · exact ⟨[1], .cons (by omega) .nil, rfl⟩
  refine ⟨o, h, ?_, ?_⟩
  · have a := (key _).mp hd.degree.1
    have b := hd.degree.2 ((key 2).mpr (.inr rfl))
    omega
  · have a := (key _).mp hd.minDegree.1
    have b := hd.minDegree.2 ((key 1).mpr (.inl rfl))
    omega

example (b : Bool) : ∃ o, constantInit (newArray [1, 2] ((indices [1, 2]).map (fun _ => (1 : Int)))) (newArray [1] ((indices [1]).map
    (fun _ => X.fin (7 : ℝ)))) ⟨none, none, none, b⟩ = .ok o ∧ o.times = [.ninf] ∧ o.coeff = [[.fin 7]] := by
  obtain ⟨o, h, -, -, -, h1, h2, -⟩ := C87_constant _ _ 1 [1] 2 (fun _ => 1) (fun _ => X.fin (7 : ℝ)) (items_new _) (items_new _) rfl
    (.inl rfl) (by omega) (by simp) ⟨none, none, none, b⟩
  exact ⟨o, h, h1, h2⟩

end Verif.Props
