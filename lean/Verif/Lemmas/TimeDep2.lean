import Verif.Lemmas.TimeDep

set_option linter.unusedSectionVars false

namespace Verif.Coeffs

open Verif.Spec Verif.Interp

variable {K : Type} [Field K] [LinearOrder K] [IsStrictOrderedRing K]

/-- Sorted node times. -/
def sortT (ts : List K) : List K := (argsort (ts.map X.fin)).map (fun i => ts.getD i 0)
/-- A series in the order of the sorted times. -/
def sortC (ts row : List K) : List K := (argsort (ts.map X.fin)).map (fun i => row.getD i 0)

theorem argsort_lt (ts : List K) (hnd : ts.Nodup) (i : Nat) (hi : i ∈ argsort (ts.map X.fin)) :
    i < ts.length := List.mem_range.mp ((argsort_spec ts hnd).1.mem_iff.mp hi)

theorem sort_fin (ts row : List K) (hnd : ts.Nodup) (hl : row.length = ts.length) :
    (argsort (ts.map X.fin)).map (fun i => (row.map X.fin).getD i .nan) =
      (sortC ts row).map X.fin := by
  unfold sortC
  rw [List.map_map]
  apply List.map_congr_left
  intro i hi
  have := argsort_lt ts hnd i hi
  simp [List.getD_eq_getElem?_getD, hl, this]

theorem mkTimeDep_fin (nm : List (Int × Int)) (rows : List (List K)) (ts : List K)
    (hnd : ts.Nodup) (hl : nm.length = rows.length) (hr : ∀ row ∈ rows, row.length = ts.length)
    (so : Int) (kind : Kind) (hk : (so = 1 ∧ kind = .c0) ∨ (so = 2 ∧ kind = .c1)) :
    mkTimeDep nm (rows.map (·.map X.fin)) (ts.map X.fin) so =
      some ⟨(sortT ts).map X.fin, nm.zip (rows.map (fun row => (sortC ts row).map X.fin)), kind⟩ := by
  have h1 : (rows.map (·.map X.fin)).any (fun row => decide (row.length ≠ (ts.map X.fin).length)) = false := by
    rw [List.any_eq_false]
    intro row hrow
    obtain ⟨r, hr', rfl⟩ := List.mem_map.mp hrow
    simp [hr r hr']
  have h2 : (rows.map (·.map X.fin)).map
      (fun row => (argsort (ts.map X.fin)).map (fun i => row.getD i .nan)) =
      rows.map (fun row => (sortC ts row).map X.fin) := by
    rw [List.map_map]
    apply List.map_congr_left
    intro row hrow
    exact sort_fin ts row hnd (hr row hrow)
  have h3 := sort_fin ts ts hnd rfl
  unfold mkTimeDep
  rw [if_neg (by simp [hl]), h1]
  simp only [Bool.false_eq_true, if_false]
  rw [h2, h3]
  rcases hk with ⟨rfl, rfl⟩ | ⟨rfl, rfl⟩ <;> rfl

theorem sortT_length (ts : List K) (hnd : ts.Nodup) : (sortT ts).length = ts.length := by
  unfold sortT
  rw [List.length_map, (argsort_spec ts hnd).1.length_eq, List.length_range]

theorem sortC_length (ts row : List K) (hnd : ts.Nodup) : (sortC ts row).length = ts.length := by
  unfold sortC
  rw [List.length_map, (argsort_spec ts hnd).1.length_eq, List.length_range]

theorem sortT_pairwise (ts : List K) (hnd : ts.Nodup) : (sortT ts).Pairwise (· < ·) :=
  (argsort_spec ts hnd).2

/-- Where the node `j` went. -/
theorem pos_of_node (ts : List K) (hnd : ts.Nodup) (j : Nat) (hj : j < ts.length) :
    ∃ p, ∃ hp : p < (sortT ts).length, (sortT ts)[p] = ts[j] ∧
      ∀ row : List K, (hl : row.length = ts.length) →
        (sortC ts row)[p]'(by rw [sortC_length ts row hnd, ← sortT_length ts hnd]; exact hp) =
          row[j]'(by omega) := by
  have hm : j ∈ argsort (ts.map X.fin) :=
    (argsort_spec ts hnd).1.mem_iff.mpr (List.mem_range.mpr hj)
  obtain ⟨p, hp, hpj⟩ := List.getElem_of_mem hm
  refine ⟨p, by simpa [sortT] using hp, ?_, ?_⟩
  · simp [sortT, hpj, List.getD_eq_getElem?_getD, hj]
  · intro row hl
    simp [sortC, hpj, List.getD_eq_getElem?_getD, hl, hj]

theorem sortT_mem (ts : List K) (hnd : ts.Nodup) (p : Nat) (hp : p < (sortT ts).length) :
    ∃ j, ∃ hj : j < ts.length, (sortT ts)[p] = ts[j] := by
  have hp' : p < (argsort (ts.map X.fin)).length := by simpa [sortT] using hp
  have h := argsort_lt ts hnd _ (List.getElem_mem hp')
  refine ⟨_, h, ?_⟩
  simp [sortT, List.getD_eq_getElem?_getD, h]

/-- Neighbouring nodes are neighbours after sorting. -/
theorem adjacent_pos (ts : List K) (hnd : ts.Nodup) (p q : Nat)
    (hp : p < (sortT ts).length) (hq : q < (sortT ts).length) (hlt : (sortT ts)[p] < (sortT ts)[q])
    (hadj : ∀ i (hi : i < ts.length), ts[i] ≤ (sortT ts)[p] ∨ (sortT ts)[q] ≤ ts[i]) : q = p + 1 := by
  have hs := sortT_pairwise ts hnd
  have hpq : p < q := by
    by_contra h
    exact absurd (le_of_le_idx hs q p hp (by omega)) (not_le.mpr hlt)
  by_contra hne
  obtain ⟨j, hj, hj'⟩ := sortT_mem ts hnd (p+1) (by omega)
  have h1 := lt_of_lt_idx hs p (p+1) (by omega) (by omega)
  have h2 := lt_of_lt_idx hs (p+1) q hq (by omega)
  rcases hadj j hj with h | h
  · rw [← hj'] at h; exact absurd h (not_le.mpr h1)
  · rw [← hj'] at h; exact absurd h (not_le.mpr h2)

/-- Sorting forgets the order in which the nodes came. -/
theorem sort_perm (ts row : List K) (hnd : ts.Nodup) (hl : row.length = ts.length)
    (p : List Nat) (hp : p.Perm (List.range ts.length)) :
    sortT (p.map (fun i => ts.getD i 0)) = sortT ts ∧
      sortC (p.map (fun i => ts.getD i 0)) (p.map (fun i => row.getD i 0)) = sortC ts row := by
  set ts' := p.map (fun i => ts.getD i 0) with hts'
  set row' := p.map (fun i => row.getD i 0) with hrow'
  have hrange : (List.range ts.length).map (fun i => ts.getD i 0) = ts := by
    apply List.ext_getElem (by simp)
    intro n h1 h2
    simp [List.getD_eq_getElem?_getD, h2]
  have hpl : p.length = ts.length := by rw [hp.length_eq, List.length_range]
  have hl' : ts'.length = ts.length := by simp [hts', hpl]
  have hnd' : ts'.Nodup := by
    have h := hp.map (fun i => ts.getD i 0)
    rw [hrange] at h
    exact h.nodup_iff.mpr hnd
  -- lists of pairs
  have hpairs : ∀ (t r : List K), t.Nodup → r.length = t.length →
      ((argsort (t.map X.fin)).map (fun i => (t.getD i 0, r.getD i 0))).Perm
        ((List.range t.length).map (fun i => (t.getD i 0, r.getD i 0))) := by
    intro t r hn _
    exact (argsort_spec t hn).1.map _
  have h1 := hpairs ts row hnd hl
  have h2 := hpairs ts' row' hnd' (by simp [hrow', hts'])
  have h3 : ((List.range ts'.length).map (fun i => (ts'.getD i 0, row'.getD i 0))) =
      p.map (fun i => (ts.getD i 0, row.getD i 0)) := by
    apply List.ext_getElem (by simp [hl', hpl])
    intro n a b
    have hn : n < p.length := by simpa using b
    simp [hts', hrow', List.getD_eq_getElem?_getD, hn]
  rw [h3] at h2
  have h4 : ((argsort (ts'.map X.fin)).map (fun i => (ts'.getD i 0, row'.getD i 0))).Perm
      ((argsort (ts.map X.fin)).map (fun i => (ts.getD i 0, row.getD i 0))) :=
    h2.trans ((hp.map _).trans h1.symm)
  have hsorted : ∀ (t r : List K), t.Nodup →
      ((argsort (t.map X.fin)).map (fun i => (t.getD i 0, r.getD i 0))).Pairwise
        (fun a b => a.1 < b.1) := by
    intro t r hn
    have := (argsort_spec t hn).2
    rw [List.pairwise_map] at this ⊢
    exact this
  have heq := List.Perm.eq_of_pairwise (le := fun a b : K × K => a.1 < b.1)
    (fun a b _ _ h1 h2 => absurd h1 (not_lt.mpr h2.le)) (hsorted ts' row' hnd') (hsorted ts row hnd) h4
  constructor
  · have := congrArg (List.map Prod.fst) heq
    simpa [sortT, List.map_map, Function.comp_def] using this
  · have := congrArg (List.map Prod.snd) heq
    simpa [sortC, List.map_map, Function.comp_def] using this

end Verif.Coeffs
