import Verif.Lemmas.Coefficients
import Verif.Spec.Line
import Mathlib.Data.List.Perm.Basic
import Mathlib.Data.List.Nodup

set_option linter.unusedSectionVars false

namespace Verif.Coeffs

open Verif.Spec Verif.Interp

section
variable {K : Type} [Field K] [LinearOrder K]

theorem interpEntries_ok (kind : Kind) (times : List (X K)) (t : X K)
    (entries : List ((Int × Int) × List (X K))) (val : List (X K) → X K)
    (h : ∀ e ∈ entries, interp kind true t times e.2 = .ok (val e.2)) :
    interpEntries kind times t entries = some (entries.map (fun e => (e.1, val e.2))) := by
  unfold interpEntries
  induction entries with
  | nil => rfl
  | cons e l ih =>
    rw [List.mapM_cons, h e (by simp), ih (fun x hx => h x (List.mem_cons_of_mem _ hx))]
    rfl

theorem callSingle_spec (td : TimeDep K) (conv : X K → X K) (lo hi : Int) (t : X K)
    (val : List (X K) → X K) (hne : td.entries ≠ [])
    (hv : ∀ e ∈ td.entries, |e.1.2| ≤ e.1.1) (hnd : (td.entries.map Prod.fst).Nodup)
    (h : ∀ e ∈ td.entries, interp td.kind true (conv t) td.times e.2 = .ok (val e.2)) :
    ∃ tab, callSingle td conv lo hi t = some (tab, (subsetDegree td.entries lo hi).1) ∧
      (tab.length : Int) = coeffSize (subsetDegree td.entries lo hi).1 ∧
      (∀ e ∈ td.entries, (lo < 0 ∨ lo ≤ e.1.1) ∧ (hi < 0 ∨ e.1.1 ≤ hi) →
        cell tab (rowIdx e.1.1 e.1.2).toNat (colIdx e.1.2) = val e.2) ∧
      (∀ r c, (∀ e ∈ td.entries, (lo < 0 ∨ lo ≤ e.1.1) ∧ (hi < 0 ∨ e.1.1 ≤ hi) →
        ((rowIdx e.1.1 e.1.2).toNat, colIdx e.1.2) ≠ (r, c)) → cell tab r c = 0) := by
  obtain ⟨hf, h0, h1⟩ := subsetDegree_spec td.entries hne lo hi
  set sub := subsetDegree td.entries lo hi with hsub
  have hsubset : ∀ e ∈ sub.2, e ∈ td.entries := by
    intro e he; rw [hf] at he; exact (List.mem_filter.mp he).1
  have hle : ∀ e ∈ sub.2, e.1.1 ≤ sub.1 := by
    intro e he
    exact (h1 (List.ne_nil_of_mem he)).1 e he
  have hd0 : 0 ≤ sub.1 := by
    by_cases hn : sub.2 = []
    · rw [h0 hn]
    · obtain ⟨e, he, heq⟩ := (h1 hn).2
      have := hv e (hsubset e he)
      have := abs_nonneg e.1.2
      omega
  have hvals := interpEntries_ok td.kind td.times (conv t) sub.2 val
    (fun e he => h e (hsubset e he))
  obtain ⟨tab, ht, hl, hcell, hz⟩ := fillTable_spec sub.1
    (sub.2.map (fun e => (e.1, val e.2)))
    (by
      intro e he
      obtain ⟨x, hx, rfl⟩ := List.mem_map.mp he
      exact ⟨hv x (hsubset x hx), hle x hx⟩)
    (by
      rw [List.map_map]
      have : (Prod.fst ∘ fun e : (Int × Int) × List (X K) => (e.1, val e.2)) = Prod.fst := rfl
      rw [this, hf]
      exact hnd.sublist (List.Sublist.map _ List.filter_sublist))
  refine ⟨tab, ?_, ?_, ?_, ?_⟩
  · unfold callSingle
    simp only [← hsub, hvals, ht, Option.bind_eq_bind, Option.bind_some]
    rfl
  · rw [hl]
    have := two_size sub.1
    have h3 : 0 ≤ (sub.1 + 2) * (sub.1 + 1) := by positivity
    omega
  · intro e he hc
    refine hcell (e.1, val e.2) (List.mem_map.mpr ⟨e, ?_, rfl⟩)
    rw [hf]
    exact List.mem_filter.mpr ⟨he, by simpa using hc⟩
  · intro r c hr
    apply hz
    intro e he
    obtain ⟨x, hx, rfl⟩ := List.mem_map.mp he
    rw [hf] at hx
    obtain ⟨hx1, hx2⟩ := List.mem_filter.mp hx
    exact hr x hx1 (by simpa using hx2)

variable [IsStrictOrderedRing K]

/-- The sorting order of finite distinct times. -/
theorem argsort_spec (ts : List K) (hnd : ts.Nodup) :
    (argsort (ts.map X.fin)).Perm (List.range ts.length) ∧
      ((argsort (ts.map X.fin)).map (fun i => ts.getD i 0)).Pairwise (· < ·) := by
  have hperm : (argsort (ts.map X.fin)).Perm (List.range ts.length) := by
    unfold argsort
    rw [List.length_map]
    exact List.mergeSort_perm _ _
  refine ⟨hperm, ?_⟩
  have heq : argsort (ts.map X.fin) =
      (List.range ts.length).mergeSort (fun i j => decide (ts.getD i 0 ≤ ts.getD j 0)) := by
    unfold argsort
    have h := List.map_mergeSort (l := List.range ts.length) (f := id)
      (r := fun i j => X.le ((ts.map X.fin).getD i .nan) ((ts.map X.fin).getD j .nan))
      (s := fun i j => decide (ts.getD i 0 ≤ ts.getD j 0))
      (by
        intro a ha b hb
        rw [List.mem_range] at ha hb
        simp [List.getD_eq_getElem?_getD, ha, hb, X.le])
    simpa using h
  have hs : (argsort (ts.map X.fin)).Pairwise (fun i j => ts.getD i 0 ≤ ts.getD j 0) := by
    rw [heq]
    have := List.pairwise_mergeSort (le := fun i j => decide (ts.getD i 0 ≤ ts.getD j 0))
      (fun a b c => by simp only [decide_eq_true_eq]; exact le_trans)
      (fun a b => by simp only [Bool.or_eq_true, decide_eq_true_eq]; exact le_total _ _)
      (List.range ts.length)
    simpa using this
  rw [List.pairwise_map]
  have hnd' : (argsort (ts.map X.fin)).Nodup := hperm.nodup_iff.mpr List.nodup_range
  refine (List.pairwise_iff_forall_sublist).mpr ?_
  intro i j hij
  have h1 := (List.pairwise_iff_forall_sublist.mp hs) hij
  have h2 : i ≠ j := (List.pairwise_iff_forall_sublist.mp hnd') hij
  have hi : i < ts.length := List.mem_range.mp (hperm.mem_iff.mp (hij.subset (by simp)))
  have hj : j < ts.length := List.mem_range.mp (hperm.mem_iff.mp (hij.subset (by simp)))
  refine lt_of_le_of_ne h1 ?_
  simp only [List.getD_eq_getElem?_getD, hi, hj, List.getElem?_eq_getElem, Option.getD_some]
  intro he
  exact h2 ((List.Nodup.getElem_inj_iff hnd).mp he)

end

end Verif.Coeffs
