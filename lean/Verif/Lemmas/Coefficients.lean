import Verif.Model.Coefficients
import Verif.Lemmas.Interp
import Verif.Spec.Table
import Mathlib.Tactic.Linarith
import Mathlib.Tactic.Ring
import Mathlib.Algebra.Order.Ring.Int

set_option linter.unusedSectionVars false

namespace Verif.Coeffs

open Verif.Spec Verif.Interp

theorem two_tri (n : Int) : 2 * ((n * (n + 1)) / 2) = n * (n + 1) :=
  Int.two_mul_ediv_two_of_even (Int.even_mul_succ_self n)

theorem two_size (n : Int) : 2 * coeffSize n = (n + 2) * (n + 1) := by
  have h := two_tri (n + 1)
  unfold coeffSize
  rw [show (n + 2) * (n + 1) = (n + 1) * (n + 1 + 1) by ring]
  exact h

theorem rowIdx_nonneg (n m : Int) : 0 ≤ rowIdx n m := by
  have h := two_tri n
  have h2 : 0 ≤ n * (n + 1) := by
    rcases lt_or_ge n 0 with h0 | h0
    · nlinarith
    · positivity
  have := abs_nonneg m
  unfold rowIdx; omega

theorem rowIdx_lt (n m d : Int) (hm : |m| ≤ n) (hd : n ≤ d) : rowIdx n m < coeffSize d := by
  have h1 := two_tri n
  have h2 := two_size d
  have h0 : 0 ≤ n := le_trans (abs_nonneg m) hm
  have h3 : (n + 2) * (n + 1) ≤ (d + 2) * (d + 1) := by nlinarith
  have h4 : (n + 2) * (n + 1) = n * (n + 1) + 2 * n + 2 := by ring
  unfold rowIdx; omega

theorem rowIdx_inj (n m n' m' : Int) (hm : |m| ≤ n) (hm' : |m'| ≤ n')
    (h : rowIdx n m = rowIdx n' m') : n = n' ∧ |m| = |m'| := by
  have h1 := two_tri n
  have h2 := two_tri n'
  have h3 := abs_nonneg m
  have h4 := abs_nonneg m'
  have key : ∀ a b : Int, 0 ≤ a → a < b → a * (a + 1) + 2 * a + 2 ≤ b * (b + 1) := by
    intro a b ha hab
    nlinarith
  unfold rowIdx at h
  rcases lt_trichotomy n n' with hlt | heq | hlt
  · have := key n n' (by omega) hlt; omega
  · subst heq; exact ⟨rfl, by omega⟩
  · have := key n' n (by omega) hlt; omega

theorem idx_inj (n m n' m' : Int) (hm : |m| ≤ n) (hm' : |m'| ≤ n')
    (h : rowIdx n m = rowIdx n' m') (hc : colIdx m = colIdx m') : n = n' ∧ m = m' := by
  obtain ⟨h1, h2⟩ := rowIdx_inj n m n' m' hm hm' h
  refine ⟨h1, ?_⟩
  simp only [colIdx, decide_eq_decide] at hc
  rcases lt_or_ge m 0 with h0 | h0
  · have h0' := hc.mp h0
    rw [abs_of_neg h0, abs_of_neg h0'] at h2; omega
  · have h0' : ¬ m' < 0 := fun h => absurd (hc.mpr h) (by omega)
    rw [abs_of_nonneg h0, abs_of_nonneg (by omega)] at h2; exact h2

section tab
variable {V : Type} [Zero V]

theorem cell_zeros (d : Int) (r : Nat) (c : Bool) : cell (zeros V d) r c = 0 := by
  unfold cell zeros
  by_cases h : r < (coeffSize d).toNat
  · simp [List.getElem?_replicate, h]
  · simp [List.getElem?_replicate, h]

theorem cell_setItem (t t' : Tab V) (row : Int) (col : Bool) (v : V)
    (h : setItem t row col v = some t') :
    t'.length = t.length ∧ cell t' row.toNat col = v ∧
      ∀ r c, (r, c) ≠ (row.toNat, col) → cell t' r c = cell t r c := by
  unfold setItem at h
  split at h
  · rename_i hlt
    simp only [Option.some.injEq] at h
    subst h
    refine ⟨by simp, ?_, ?_⟩
    · unfold cell
      simp only [List.getElem?_modify, if_true]
      rw [List.getElem?_eq_getElem hlt]
      cases col <;> simp
    · intro r c hne
      unfold cell
      simp only [List.getElem?_modify]
      by_cases hr : row.toNat = r
      · subst hr
        have hc : c ≠ col := fun hc => hne (by rw [hc])
        rw [List.getElem?_eq_getElem hlt]
        cases col <;> cases c <;> simp_all
      · simp [hr]
  · exact absurd h (by simp)

theorem fill_spec (entries : List ((Int × Int) × V)) (t : Tab V)
    (hrow : ∀ e ∈ entries, (rowIdx e.1.1 e.1.2).toNat < t.length)
    (hnd : entries.Pairwise (fun a b =>
      ((rowIdx a.1.1 a.1.2).toNat, colIdx a.1.2) ≠ ((rowIdx b.1.1 b.1.2).toNat, colIdx b.1.2))) :
    ∃ t', entries.foldlM (fun t e => setItem t (rowIdx e.1.1 e.1.2) (colIdx e.1.2) e.2) t = some t' ∧
      t'.length = t.length ∧
      (∀ e ∈ entries, cell t' (rowIdx e.1.1 e.1.2).toNat (colIdx e.1.2) = e.2) ∧
      ∀ r c, (∀ e ∈ entries, ((rowIdx e.1.1 e.1.2).toNat, colIdx e.1.2) ≠ (r, c)) →
        cell t' r c = cell t r c := by
  induction entries generalizing t with
  | nil => exact ⟨t, rfl, rfl, by simp, by simp⟩
  | cons e l ih =>
    rw [List.pairwise_cons] at hnd
    have h1 : ∃ t1, setItem t (rowIdx e.1.1 e.1.2) (colIdx e.1.2) e.2 = some t1 := by
      unfold setItem
      rw [if_pos (hrow e (by simp))]
      exact ⟨_, rfl⟩
    obtain ⟨t1, ht1⟩ := h1
    obtain ⟨hl, hv, ho⟩ := cell_setItem t t1 _ _ _ ht1
    obtain ⟨t', hf, hl', hv', ho'⟩ := ih t1
      (fun e' he' => by rw [hl]; exact hrow e' (List.mem_cons_of_mem _ he')) hnd.2
    refine ⟨t', ?_, by omega, ?_, ?_⟩
    · simp [List.foldlM_cons, ht1, hf]
    · intro e' he'
      rcases List.mem_cons.mp he' with rfl | he'
      · rw [ho' _ _ (fun x hx heq => hnd.1 x hx heq.symm), hv]
      · exact hv' e' he'
    · intro r c h
      rw [ho' r c (fun x hx => h x (List.mem_cons_of_mem _ hx)),
        ho r c (fun heq => h e (by simp) heq.symm)]

/-- Valid and distinct indices. -/
theorem fillTable_spec (degree : Int) (entries : List ((Int × Int) × V))
    (hv : ∀ e ∈ entries, |e.1.2| ≤ e.1.1 ∧ e.1.1 ≤ degree)
    (hnd : (entries.map Prod.fst).Nodup) :
    ∃ t, fillTable degree entries = some t ∧ (t.length : Int) = (coeffSize degree).toNat ∧
      (∀ e ∈ entries, cell t (rowIdx e.1.1 e.1.2).toNat (colIdx e.1.2) = e.2) ∧
      ∀ r c, (∀ e ∈ entries, ((rowIdx e.1.1 e.1.2).toNat, colIdx e.1.2) ≠ (r, c)) →
        cell t r c = 0 := by
  obtain ⟨t, h1, h2, h3, h4⟩ := fill_spec entries (zeros V degree)
    (fun e he => by
      have := rowIdx_lt e.1.1 e.1.2 degree (hv e he).1 (hv e he).2
      have := rowIdx_nonneg e.1.1 e.1.2
      simp only [zeros, List.length_replicate]; omega)
    (by
      have hp := List.pairwise_map.mp hnd
      refine (List.pairwise_iff_forall_sublist).mpr ?_
      intro a b hab heq
      have hmem := hab.subset
      have ha := hv a (hmem (by simp))
      have hb := hv b (hmem (by simp))
      have hne := (List.pairwise_iff_forall_sublist.mp hp) hab
      simp only [Prod.mk.injEq] at heq
      have := rowIdx_nonneg a.1.1 a.1.2
      have := rowIdx_nonneg b.1.1 b.1.2
      obtain ⟨e1, e2⟩ := idx_inj _ _ _ _ ha.1 hb.1 (by omega) heq.2
      exact hne (Prod.ext e1 e2))
  refine ⟨t, h1, by rw [h2]; simp [zeros], h3, fun r c h => ?_⟩
  rw [h4 r c h, cell_zeros]

end tab

section sub
variable {V : Type}

theorem foldl_max_spec (l : List ((Int × Int) × V)) (a : Int) :
    a ≤ l.foldl (fun a x => max a x.1.1) a ∧
      (∀ e ∈ l, e.1.1 ≤ l.foldl (fun a x => max a x.1.1) a) ∧
      (l.foldl (fun a x => max a x.1.1) a = a ∨ ∃ e ∈ l, e.1.1 = l.foldl (fun a x => max a x.1.1) a) := by
  induction l generalizing a with
  | nil => simp
  | cons e l ih =>
    obtain ⟨h1, h2, h3⟩ := ih (max a e.1.1)
    simp only [List.foldl_cons, List.mem_cons]
    refine ⟨by omega, ?_, ?_⟩
    · rintro x (rfl | hx)
      · omega
      · exact h2 x hx
    · rcases h3 with h3 | ⟨x, hx, h3⟩
      · rcases le_total a e.1.1 with h | h
        · right; exact ⟨e, Or.inl rfl, by omega⟩
        · left; omega
      · right; exact ⟨x, Or.inr hx, h3⟩

theorem foldl_min_spec (l : List ((Int × Int) × V)) (a : Int) :
    l.foldl (fun a x => min a x.1.1) a ≤ a ∧
      (∀ e ∈ l, l.foldl (fun a x => min a x.1.1) a ≤ e.1.1) ∧
      (l.foldl (fun a x => min a x.1.1) a = a ∨ ∃ e ∈ l, e.1.1 = l.foldl (fun a x => min a x.1.1) a) := by
  induction l generalizing a with
  | nil => simp
  | cons e l ih =>
    obtain ⟨h1, h2, h3⟩ := ih (min a e.1.1)
    simp only [List.foldl_cons, List.mem_cons]
    refine ⟨by omega, ?_, ?_⟩
    · rintro x (rfl | hx)
      · omega
      · exact h2 x hx
    · rcases h3 with h3 | ⟨x, hx, h3⟩
      · rcases le_total a e.1.1 with h | h
        · left; omega
        · right; exact ⟨e, Or.inl rfl, by omega⟩
      · right; exact ⟨x, Or.inr hx, h3⟩

theorem maxN_spec (l : List ((Int × Int) × V)) (h : l ≠ []) :
    (∀ e ∈ l, e.1.1 ≤ maxN l) ∧ ∃ e ∈ l, e.1.1 = maxN l := by
  cases l with
  | nil => exact absurd rfl h
  | cons e l =>
    obtain ⟨h1, h2, h3⟩ := foldl_max_spec l e.1.1
    simp only [maxN, List.mem_cons]
    refine ⟨?_, ?_⟩
    · rintro x (rfl | hx)
      · exact h1
      · exact h2 x hx
    · rcases h3 with h3 | ⟨x, hx, h3⟩
      · exact ⟨e, Or.inl rfl, h3.symm⟩
      · exact ⟨x, Or.inr hx, h3⟩

theorem minN_spec (l : List ((Int × Int) × V)) (h : l ≠ []) :
    (∀ e ∈ l, minN l ≤ e.1.1) ∧ ∃ e ∈ l, e.1.1 = minN l := by
  cases l with
  | nil => exact absurd rfl h
  | cons e l =>
    obtain ⟨h1, h2, h3⟩ := foldl_min_spec l e.1.1
    simp only [minN, List.mem_cons]
    refine ⟨?_, ?_⟩
    · rintro x (rfl | hx)
      · exact h1
      · exact h2 x hx
    · rcases h3 with h3 | ⟨x, hx, h3⟩
      · exact ⟨e, Or.inl rfl, h3.symm⟩
      · exact ⟨x, Or.inr hx, h3⟩

theorem subsetDegree_spec (entries : List ((Int × Int) × V)) (hne : entries ≠ [])
    (lo hi : Int) :
    (subsetDegree entries lo hi).2 =
        entries.filter (fun e => decide ((lo < 0 ∨ lo ≤ e.1.1) ∧ (hi < 0 ∨ e.1.1 ≤ hi))) ∧
      ((subsetDegree entries lo hi).2 = [] → (subsetDegree entries lo hi).1 = 0) ∧
      ((subsetDegree entries lo hi).2 ≠ [] →
        (∀ e ∈ (subsetDegree entries lo hi).2, e.1.1 ≤ (subsetDegree entries lo hi).1) ∧
        ∃ e ∈ (subsetDegree entries lo hi).2, e.1.1 = (subsetDegree entries lo hi).1) := by
  obtain ⟨hM, -⟩ := maxN_spec entries hne
  obtain ⟨hm, -⟩ := minN_spec entries hne
  have hfil : entries.filter (fun e =>
        decide (e.1.1 ≤ if hi < 0 then maxN entries else hi) &&
        decide (e.1.1 ≥ if lo < 0 then minN entries else lo)) =
      entries.filter (fun e => decide ((lo < 0 ∨ lo ≤ e.1.1) ∧ (hi < 0 ∨ e.1.1 ≤ hi))) := by
    apply List.filter_congr
    intro e he
    have h1 := hM e he
    have h2 := hm e he
    rw [Bool.eq_iff_iff]
    simp only [Bool.and_eq_true, decide_eq_true_eq]
    split <;> split <;> omega
  unfold subsetDegree
  simp only
  generalize (if hi < 0 then maxN entries else hi) = hi' at *
  generalize (if lo < 0 then minN entries else lo) = lo' at *
  split
  · split
    · rename_i hlen
      refine ⟨hfil, fun h => ?_, fun h => maxN_spec _ h⟩
      simp only at h
      rw [h] at hlen
      simp at hlen
    · rename_i hlen
      refine ⟨hfil, fun _ => rfl, fun h => ?_⟩
      exact absurd (List.length_pos_iff.mpr h) hlen
  · rename_i hc
    simp only [Bool.or_eq_true, decide_eq_true_eq, not_or] at hc
    refine ⟨?_, fun h => absurd h hne, fun h => maxN_spec _ h⟩
    rw [← hfil]
    symm
    apply List.filter_eq_self.mpr
    intro e he
    have h1 := hM e he
    have h2 := hm e he
    simp only [Bool.and_eq_true, decide_eq_true_eq]
    omega

end sub

end Verif.Coeffs
