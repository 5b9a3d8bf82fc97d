/-
C10 - C12: sparse coefficient sets.
-/
import Verif.Lemmas.TimeDep2
import Verif.Props.Interp
import Mathlib.Tactic.IntervalCases

set_option linter.unusedSectionVars false

namespace Verif.Props

open Verif.Coeffs Verif.Interp Verif.Spec

/-- Number of the rows: the table of the degree `d` has as many rows as there are
pairs `0 ≤ m ≤ n ≤ d`. -/
theorem C10_size (d : Nat) : coeffSize d = tableRows d := by
  induction d with
  | zero => rfl
  | succ d ih =>
    have h1 := two_size d
    have h2 := two_size ((d + 1 : Nat) : Int)
    simp only [tableRows]
    push_cast at *
    have h3 : ((d : Int) + 1 + 2) * (d + 1 + 1) = (d + 2) * (d + 1) + 2 * (d + 2) := by ring
    omega

/-- C10: different valid indices never share a place in the table. -/
theorem C10_no_collision (n m n' m' : Int) (hm : |m| ≤ n) (hm' : |m'| ≤ n')
    (hne : (n, m) ≠ (n', m')) : (rowIdx n m, colIdx m) ≠ (rowIdx n' m', colIdx m') := by
  intro h
  simp only [Prod.mk.injEq] at h
  obtain ⟨h1, h2⟩ := idx_inj n m n' m' hm hm' h.1 h.2
  exact hne (by rw [h1, h2])

example : ((3 : Int), (-2 : Int)) ≠ (3, 2) ∧ |(-2 : Int)| ≤ 3 := by decide

/-- C10: filling the dense table succeeds, the table has the size of its degree, each
value is at the row `n(n+1)/2 + |m|`, in the second column for `m < 0`, and everything
else is zero. -/
theorem C10_dense {V : Type} [Zero V] (degree : Int) (entries : List ((Int × Int) × V))
    (hv : ∀ e ∈ entries, |e.1.2| ≤ e.1.1 ∧ e.1.1 ≤ degree)
    (hnd : (entries.map Prod.fst).Nodup) :
    ∃ t, fillTable degree entries = some t ∧
      (0 ≤ degree → (t.length : Int) = (degree + 1) * (degree + 2) / 2) ∧
      (∀ n m v, ((n, m), v) ∈ entries →
        cell t (n * (n + 1) / 2 + |m|).toNat (decide (m < 0)) = v) ∧
      ∀ (r : Nat) c, (∀ n m v, ((n, m), v) ∈ entries →
          ¬ ((r : Int) = n * (n + 1) / 2 + |m| ∧ c = decide (m < 0))) → cell t r c = 0 := by
  obtain ⟨t, h1, h2, h3, h4⟩ := fillTable_spec degree entries hv hnd
  refine ⟨t, h1, ?_, ?_, ?_⟩
  · intro h0
    have := two_size degree
    have h3 : 0 ≤ (degree + 2) * (degree + 1) := by positivity
    have h5 : (degree + 1) * (degree + 2) = (degree + 2) * (degree + 1) := by ring
    rw [h2, h5]
    omega
  · intro n m v he
    have := h3 _ he
    simp only [rowIdx, colIdx] at this
    rw [add_comm]
    exact this
  · intro r c h
    apply h4
    rintro ⟨⟨n, m⟩, v⟩ he heq
    have hn := rowIdx_nonneg n m
    simp only [Prod.mk.injEq] at heq
    refine h n m v he ⟨?_, heq.2.symm⟩
    have : rowIdx n m = n * (n + 1) / 2 + |m| := by unfold rowIdx; ring
    omega

example : ∃ t, fillTable 2 [((2, -1), (5 : Int)), ((1, 0), 7)] = some t ∧
    cell t 4 true = 5 ∧ cell t 1 false = 7 ∧ cell t 4 false = 0 := by
  refine ⟨_, rfl, ?_, ?_, ?_⟩ <;> decide

section sub
variable {V : Type}

/-- C11: exactly the coefficients inside of the limits are kept, in order and
unchanged; negative limits mean no limit. -/
theorem C11_kept (entries : List ((Int × Int) × V)) (hne : entries ≠ []) (lo hi : Int) :
    (subsetDegree entries lo hi).2 =
      entries.filter (fun e => decide ((lo < 0 ∨ lo ≤ e.1.1) ∧ (hi < 0 ∨ e.1.1 ≤ hi))) :=
  (subsetDegree_spec entries hne lo hi).1

/-- C11: the returned degree is the largest degree left, or zero. -/
theorem C11_degree (entries : List ((Int × Int) × V)) (hne : entries ≠ []) (lo hi : Int) :
    let kept := entries.filter (fun e => decide ((lo < 0 ∨ lo ≤ e.1.1) ∧ (hi < 0 ∨ e.1.1 ≤ hi)))
    let d := (subsetDegree entries lo hi).1
    (kept = [] ∧ d = 0) ∨ ((∃ e ∈ kept, e.1.1 = d) ∧ ∀ e ∈ kept, e.1.1 ≤ d) := by
  intro kept d
  obtain ⟨h1, h2, h3⟩ := subsetDegree_spec entries hne lo hi
  by_cases hk : kept = []
  · left; exact ⟨hk, h2 (h1.trans hk)⟩
  · right
    have := h3 (by rw [h1]; exact hk)
    rw [h1] at this
    exact ⟨this.2, this.1⟩

example : subsetDegree [((1, 0), 'a'), ((3, -2), 'b'), ((5, 1), 'c')] 2 4 = (3, [((3, -2), 'b')]) ∧
    subsetDegree [((1, 0), 'a'), ((3, -2), 'b')] 4 (-1) = (0, []) := by decide

end sub

section timedep
variable {K : Type} [Field K] [LinearOrder K]

/-- C11 for the evaluation: with degree limits, every coefficient within the limits
keeps its interpolated value at its place and everything else is zero; the size of the
table is that of the returned degree. -/
theorem C11_evaluated (td : TimeDep K) (conv : X K → X K) (lo hi : Int) (t : X K)
    (val : List (X K) → X K) (hne : td.entries ≠ [])
    (hv : ∀ e ∈ td.entries, |e.1.2| ≤ e.1.1) (hnd : (td.entries.map Prod.fst).Nodup)
    (h : ∀ e ∈ td.entries, interp td.kind true (conv t) td.times e.2 = .ok (val e.2)) :
    ∃ tab, callSingle td conv lo hi t = some (tab, (subsetDegree td.entries lo hi).1) ∧
      (tab.length : Int) = ((subsetDegree td.entries lo hi).1 + 1) *
        ((subsetDegree td.entries lo hi).1 + 2) / 2 ∧
      (∀ n m c, ((n, m), c) ∈ td.entries → (lo < 0 ∨ lo ≤ n) → (hi < 0 ∨ n ≤ hi) →
        cell tab (n * (n + 1) / 2 + |m|).toNat (decide (m < 0)) = val c) ∧
      (∀ (r : Nat) c, (∀ n m s, ((n, m), s) ∈ td.entries → (lo < 0 ∨ lo ≤ n) → (hi < 0 ∨ n ≤ hi) →
        ¬ ((r : Int) = n * (n + 1) / 2 + |m| ∧ c = decide (m < 0))) → cell tab r c = .fin 0) := by
  obtain ⟨tab, h1, h2, h3, h4⟩ := callSingle_spec td conv lo hi t val hne hv hnd h
  refine ⟨tab, h1, ?_, ?_, ?_⟩
  · rw [h2]
    unfold coeffSize
    congr 1
    ring
  · intro n m c he hl hh
    have := h3 _ he ⟨hl, hh⟩
    simp only [rowIdx, colIdx] at this
    rw [add_comm]
    exact this
  · intro r c hr
    apply h4 r c
    rintro ⟨⟨n, m⟩, s⟩ he ⟨hl, hh⟩ heq
    have hn := rowIdx_nonneg n m
    simp only [Prod.mk.injEq] at heq
    refine hr n m s he hl hh ⟨?_, heq.2.symm⟩
    have : rowIdx n m = n * (n + 1) / 2 + |m| := by unfold rowIdx; ring
    omega

/-- C12: evaluation at many times is the stack of the evaluations at each time. -/
theorem C12_multi (td : TimeDep K) (conv : X K → X K) (lo hi : Int) (ts : List (X K))
    (tabs : List (Tab (X K))) (d : Int) :
    callMulti td conv lo hi ts = some (tabs, d) ↔
      d = (subsetDegree td.entries lo hi).1 ∧
      List.Forall₂ (fun t tab => callSingle td conv lo hi t = some (tab, d)) ts tabs := by
  unfold callMulti callSingle
  simp only [Option.bind_eq_bind, Option.pure_def]
  generalize hsub : subsetDegree td.entries lo hi = sub
  constructor
  · intro h
    rw [Option.bind_eq_some_iff] at h
    obtain ⟨tabs', h1, h2⟩ := h
    simp only [Option.some.injEq, Prod.mk.injEq] at h2
    obtain ⟨rfl, rfl⟩ := h2
    refine ⟨rfl, ?_⟩
    induction ts generalizing tabs' with
    | nil => simp only [List.mapM_nil, Option.pure_def, Option.some.injEq] at h1; subst h1; constructor
    | cons t ts ih =>
      rw [List.mapM_cons] at h1
      simp only [Option.bind_eq_bind, Option.bind_eq_some_iff, Option.pure_def] at h1
      obtain ⟨x, ⟨v, hv, hx⟩, xs, hxs, heq⟩ := h1
      simp only [Option.some.injEq] at heq
      subst heq
      refine List.Forall₂.cons ?_ (ih xs hxs)
      simp [hv, hx]
  · rintro ⟨rfl, h⟩
    rw [Option.bind_eq_some_iff]
    refine ⟨tabs, ?_, rfl⟩
    induction h with
    | nil => rfl
    | cons hx _ ih =>
      rw [List.mapM_cons, ih]
      rw [Option.bind_eq_some_iff] at hx
      obtain ⟨v, hv, hx⟩ := hx
      rw [Option.bind_eq_some_iff] at hx
      obtain ⟨tab, ht, hx⟩ := hx
      simp only [Option.some.injEq, Prod.mk.injEq, and_true] at hx
      subst hx
      simp [hv, ht]

variable [IsStrictOrderedRing K]

/-- C12: the order in which the nodes are supplied does not matter. -/
theorem C12_node_order (nm : List (Int × Int)) (rows : List (List K)) (ts : List K)
    (hnd : ts.Nodup) (hl : nm.length = rows.length) (hr : ∀ row ∈ rows, row.length = ts.length)
    (p : List Nat) (hp : p.Perm (List.range ts.length)) (so : Int) :
    mkTimeDep nm ((rows.map (fun row => p.map (fun i => row.getD i 0))).map (·.map X.fin))
        ((p.map (fun i => ts.getD i 0)).map X.fin) so =
      mkTimeDep nm (rows.map (·.map X.fin)) (ts.map X.fin) so := by
  have hpl : p.length = ts.length := by rw [hp.length_eq, List.length_range]
  have hnd' : (p.map (fun i => ts.getD i 0)).Nodup := by
    have hrange : (List.range ts.length).map (fun i => ts.getD i 0) = ts := by
      apply List.ext_getElem (by simp)
      intro n h1 h2
      simp [List.getD_eq_getElem?_getD, h2]
    have h := hp.map (fun i => ts.getD i 0)
    rw [hrange] at h
    exact h.nodup_iff.mpr hnd
  have main : ∀ kind, ((so = 1 ∧ kind = Kind.c0) ∨ (so = 2 ∧ kind = Kind.c1)) →
      mkTimeDep nm ((rows.map (fun row => p.map (fun i => row.getD i 0))).map (·.map X.fin))
        ((p.map (fun i => ts.getD i 0)).map X.fin) so =
      mkTimeDep nm (rows.map (·.map X.fin)) (ts.map X.fin) so := by
    intro kind hk
    rw [mkTimeDep_fin nm rows ts hnd hl hr so kind hk,
      mkTimeDep_fin nm _ _ hnd' (by simpa using hl) (by simp) so kind hk]
    have h1 : ∀ row ∈ rows, _ := fun row hrow => sort_perm ts row hnd (hr row hrow) p hp
    have h2 := (sort_perm ts ts hnd rfl p hp).1
    rw [h2, List.map_map]
    congr 3
    apply List.map_congr_left
    intro row hrow
    simp only [Function.comp_apply, (h1 row hrow).2]
  by_cases h1 : so = 1
  · exact main .c0 (Or.inl ⟨h1, rfl⟩)
  · by_cases h2 : so = 2
    · exact main .c1 (Or.inr ⟨h2, rfl⟩)
    · have : ∀ a b c, mkTimeDep (K := K) a b c so = none := by
        intro a b c
        simp [mkTimeDep, h1, h2]
      rw [this, this]

/-- C12: value of one series at any finite time, for nodes supplied in any order. -/
theorem C12_series (ts row : List K) (hnd : ts.Nodup) (hl : row.length = ts.length)
    (hn : ts.length < 2 ^ 64) (a : K) (j k : Nat) (h : Segment ts a j k) :
    interp .c1 true (.fin a) ((sortT ts).map .fin) ((sortC ts row).map .fin) =
      .ok (.fin (line (ts[j]'h.hj) (row[j]'(hl ▸ h.hj)) (ts[k]'h.hk) (row[k]'(hl ▸ h.hk)) a)) := by
  obtain ⟨hj, hk, hlt, hadj, hbef, haft⟩ := h
  have hs := sortT_pairwise ts hnd
  have hsl := sortT_length ts hnd
  have hcl := sortC_length ts row hnd
  obtain ⟨p, hp, hp1, hp2⟩ := pos_of_node ts hnd j hj
  obtain ⟨q, hq, hq1, hq2⟩ := pos_of_node ts hnd k hk
  have hpq : q = p + 1 := by
    apply adjacent_pos ts hnd p q hp hq (by rw [hp1, hq1]; exact hlt)
    intro i hi
    rw [hp1, hq1]
    exact hadj i hi
  subst hpq
  rw [← hp1, ← hq1, ← hp2 row hl, ← hq2 row hl]
  rcases lt_or_ge a ts[j] with h1 | h1
  · have hp0 : p = 0 := by
      by_contra hne
      obtain ⟨i, hi, hi'⟩ := sortT_mem ts hnd 0 (by omega)
      have := lt_of_lt_idx hs 0 p hp (by omega)
      rw [hi', hp1] at this
      exact absurd (hbef h1 i hi) (not_le.mpr this)
    subst hp0
    exact (C02_extrapolated (sortT ts) (sortC ts row) hs (by omega) (by omega) (by omega) a).1
      (by rw [hp1]; exact h1)
  rcases lt_or_ge ts[k] a with h2 | h2
  · have hp0 : p + 1 = (sortT ts).length - 1 := by
      by_contra hne
      obtain ⟨i, hi, hi'⟩ := sortT_mem ts hnd (p+2) (by omega)
      have := lt_of_lt_idx hs (p+1) (p+2) (by omega) (by omega)
      rw [hi', hq1] at this
      exact absurd (haft h2 i hi) (not_le.mpr this)
    have := (C02_extrapolated (sortT ts) (sortC ts row) hs (by omega) (by omega) (by omega) a).2
      (by simp only [← hp0]; rw [hq1]; exact h2)
    have hp3 : (sortT ts).length - 2 = p := by omega
    simp only [← hp0, hp3] at this
    exact this
  · exact C02_linear_between (sortT ts) (sortC ts row) hs (by omega) (by omega) true a p hq
      (by rw [hp1]; exact h1) (by rw [hq1]; exact h2)

/-- C12: the evaluated coefficients.  For any supplied node order each coefficient is
on the straight line through the neighbouring nodes, extended linearly outside of the
nodes, at the place belonging to its degree and order. -/
theorem C12_value (nm : List (Int × Int)) (rows : List (List K)) (ts : List K)
    (hnd : ts.Nodup) (hl : nm.length = rows.length) (hr : ∀ row ∈ rows, row.length = ts.length)
    (hn : ts.length < 2 ^ 64) (h2 : 2 ≤ ts.length) (hne : nm ≠ [])
    (hv : ∀ e ∈ nm, |e.2| ≤ e.1) (hndm : nm.Nodup)
    (conv : X K → X K) (t : X K) (a : K) (hconv : conv t = .fin a) :
    ∃ td tab d, mkTimeDep nm (rows.map (·.map X.fin)) (ts.map X.fin) 2 = some td ∧
      callSingle td conv (-1) (-1) t = some (tab, d) ∧
      (∀ e ∈ nm, e.1 ≤ d) ∧ (∃ e ∈ nm, e.1 = d) ∧
      ∀ i (hi : i < nm.length) j k (hs : Segment ts a j k),
        cell tab (nm[i].1 * (nm[i].1 + 1) / 2 + |nm[i].2|).toNat (decide (nm[i].2 < 0)) =
          .fin (line (ts[j]'hs.hj) ((rows[i]'(hl ▸ hi))[j]'((hr _ (List.getElem_mem _)) ▸ hs.hj))
            (ts[k]'hs.hk) ((rows[i]'(hl ▸ hi))[k]'((hr _ (List.getElem_mem _)) ▸ hs.hk)) a) := by
  have hmk := mkTimeDep_fin nm rows ts hnd hl hr 2 .c1 (Or.inr ⟨rfl, rfl⟩)
  set td : TimeDep K := ⟨(sortT ts).map X.fin, nm.zip (rows.map (fun row => (sortC ts row).map X.fin)), .c1⟩ with htd
  have hfst : td.entries.map Prod.fst = nm := by
    rw [htd]; exact List.map_fst_zip (by simp [hl])
  have hok : ∀ e ∈ td.entries, ∃ x, interp td.kind true (conv t) td.times e.2 = .ok x := by
    intro e he
    have he2 : e.2 ∈ rows.map (fun row => (sortC ts row).map X.fin) := (List.of_mem_zip he).2
    obtain ⟨row, hrow, hrow'⟩ := List.mem_map.mp he2
    rw [← hrow']
    have hb := C05_interp_in_bounds .c1 true (conv t) ((sortT ts).map X.fin) ((sortC ts row).map X.fin)
    have hv := C05_value_error .c1 true (conv t) ((sortT ts).map X.fin) ((sortC ts row).map X.fin)
    have hl1 := sortT_length ts hnd
    have hl2 := sortC_length ts row hnd
    show ∃ x, interp .c1 true (conv t) ((sortT ts).map X.fin) ((sortC ts row).map X.fin) = .ok x
    generalize hres : interp .c1 true (conv t) ((sortT ts).map X.fin) ((sortC ts row).map X.fin) = res at *
    cases res with
    | ok x => exact ⟨x, rfl⟩
    | oob => exact absurd rfl (hb (by simp [hl1]; omega))
    | valueError => simp [hl1, hl2, minNodes] at hv; omega
  classical
  let val : List (X K) → X K := fun c =>
    match interp .c1 true (conv t) ((sortT ts).map X.fin) c with
    | .ok x => x
    | _ => .nan
  have hval : ∀ e ∈ td.entries, interp td.kind true (conv t) td.times e.2 = .ok (val e.2) := by
    intro e he
    obtain ⟨x, hx⟩ := hok e he
    have hx' : interp .c1 true (conv t) ((sortT ts).map X.fin) e.2 = .ok x := hx
    rw [hx]
    simp only [val, hx']
  have hne' : td.entries ≠ [] := by
    intro h; rw [h] at hfst; exact hne hfst.symm
  obtain ⟨tab, h1, -, h3, -⟩ := C11_evaluated td conv (-1) (-1) t val hne'
    (by
      intro e he
      have : e.1 ∈ nm := by rw [← hfst]; exact List.mem_map_of_mem he
      exact hv _ this)
    (by rw [hfst]; exact hndm) hval
  refine ⟨td, tab, _, hmk, h1, ?_, ?_, ?_⟩
  · intro e he
    rw [← hfst] at he
    obtain ⟨x, hx, rfl⟩ := List.mem_map.mp he
    rcases C11_degree td.entries hne' (-1) (-1) with ⟨hk, -⟩ | ⟨-, hk⟩
    · simp at hk; exact absurd hk hne'
    · exact hk x (by simpa using hx)
  · rcases C11_degree td.entries hne' (-1) (-1) with ⟨hk, -⟩ | ⟨⟨x, hx, hk⟩, -⟩
    · simp at hk; exact absurd hk hne'
    · exact ⟨x.1, by rw [← hfst]; exact List.mem_map_of_mem (by simpa using hx), hk⟩
  · intro i hi j k hs
    have hi' : i < rows.length := hl ▸ hi
    have hmem : ((nm[i].1, nm[i].2), (sortC ts rows[i]).map X.fin) ∈ td.entries := by
      have : ((nm[i].1, nm[i].2), (sortC ts rows[i]).map X.fin) =
          (nm.zip (rows.map (fun row => (sortC ts row).map X.fin)))[i]'(by simp; omega) := by simp
      rw [this]
      exact List.getElem_mem _
    rw [h3 _ _ _ hmem (Or.inl (by decide)) (Or.inl (by decide))]
    have := C12_series ts rows[i] hnd (hr _ (List.getElem_mem _)) hn a j k hs
    simp only [val, hconv, this]

/-- Nodes supplied in the order 2000, 1990, 2010. -/
example : Segment [(2000 : ℚ), 1990, 2010] 1995 1 0 ∧ Segment [(2000 : ℚ), 1990, 2010] 2020 0 2 := by
  constructor
  · refine ⟨by simp, by simp, by norm_num, ?_, by norm_num, by norm_num⟩
    intro i hi
    simp only [List.length_cons, List.length_nil] at hi
    interval_cases i <;> norm_num
  · refine ⟨by simp, by simp, by norm_num, ?_, by norm_num, ?_⟩
    · intro i hi
      simp only [List.length_cons, List.length_nil] at hi
      interval_cases i <;> norm_num
    · intro _ i hi
      simp only [List.length_cons, List.length_nil] at hi
      interval_cases i <;> norm_num

/-- C12, spline order 1: the value of the last node not after the time, before all
nodes that of the first one; any node order. -/
theorem C12_series_constant (ts row : List K) (hnd : ts.Nodup) (hl : row.length = ts.length)
    (hn : ts.length < 2 ^ 64) (a : K) (j : Nat) (h : LastNode ts a j) :
    interp .c0 true (.fin a) ((sortT ts).map .fin) ((sortC ts row).map .fin) =
      .ok (.fin (row[j]'(hl ▸ h.hj))) := by
  obtain ⟨hj, hlat, hbef⟩ := h
  have hs := sortT_pairwise ts hnd
  have hsl := sortT_length ts hnd
  have hcl := sortC_length ts row hnd
  obtain ⟨p, hp, hp1, hp2⟩ := pos_of_node ts hnd j hj
  rw [← hp2 row hl]
  have hs' := pairwise_map_fin (sortT ts) hs
  rcases lt_or_ge a ts[j] with h1 | h1
  · have hp0 : p = 0 := by
      by_contra hne
      obtain ⟨i, hi, hi'⟩ := sortT_mem ts hnd 0 (by omega)
      have := lt_of_lt_idx hs 0 p hp (by omega)
      rw [hi', hp1] at this
      exact absurd (hbef h1 i hi) (not_le.mpr this)
    subst hp0
    have := C03_before_first ((sortT ts).map X.fin) ((sortC ts row).map X.fin) hs'
      (by simp; omega) (by simp; omega) true (.fin a) (by simp; omega)
      (by simp [X.le, hp1]; exact h1)
    simpa using this
  · have := C03_value_of_last_node ((sortT ts).map X.fin) ((sortC ts row).map X.fin) hs'
      (by simp; omega) (by simp; omega) true (.fin a) p (by simpa using hp)
      (by simp [X.le, hp1]; exact h1)
      (by
        intro hp'
        have hp'' : p + 1 < (sortT ts).length := by simpa using hp'
        obtain ⟨i, hi, hi'⟩ := sortT_mem ts hnd (p+1) hp''
        have hlt := lt_of_lt_idx hs p (p+1) hp'' (by omega)
        rw [hi', hp1] at hlt
        simp only [List.getElem_map, X.le, hi', decide_eq_false_iff_not, not_le]
        rcases hlat h1 i hi with h | h
        · exact absurd h (not_le.mpr hlt)
        · exact h)
    simpa using this

/-- C12 for `SparseSHCoefficientsConstant`: the same values at every time. -/
theorem C12_constant (nm : List (Int × Int)) (cs : List (X K)) (hl : nm.length = cs.length) :
    mkConstant nm cs = some ⟨[.ninf], nm.zip (cs.map (fun c => [c])), .c0⟩ ∧
    ∀ t : X K, t ≠ .nan → ∀ c, interp .c0 true t [.ninf] [c] = .ok c := by
  constructor
  · unfold mkConstant mkTimeDep argsort
    simp [hl, List.range_succ, Function.comp_def]
  · intro t ht c
    exact C03_single_ninf true t c ht

end timedep

end Verif.Props
