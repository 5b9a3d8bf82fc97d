/-
The recursion over the arrays in the terms of the specification of arrays.
-/
import Verif.Lemmas.ArrayApi
import Verif.Spec.NdArray

set_option linter.unusedSectionVars false

namespace Verif.Arr

open Verif.Buf Verif.Geo Verif.FullEval Verif.Spec

theorem offset_eq : ∀ (idx : List Nat) (s : List Int),
    offset idx s = (List.zipWith (fun (i : Nat) (s : Int) => (i : Int) * s) idx s).sum
  | [], s => by simp [offset]
  | _ :: _, [] => by simp [offset]
  | i :: idx, s :: t => by simp [offset, offset_eq idx t]

theorem rank_eq : ∀ {dims idx : List Nat}, Index dims idx → (rank dims idx : Int) = offset idx (cstrides dims)
  | [], [], _ => rfl
  | n :: d, i :: idx, .cons _ h => by
    simp only [rank, cstrides, offset]
    push_cast
    rw [rank_eq h]

theorem mem_indices {lead idx : List Nat} : idx ∈ indices lead ↔ Index lead idx := by
  refine ⟨indices_valid, fun h => ?_⟩
  induction lead generalizing idx with
  | nil => cases h; simp [indices]
  | cons n d ih =>
    cases h with
    | cons h1 h2 =>
      simp only [indices, List.mem_flatMap, List.mem_range, List.mem_map]
      exact ⟨_, h1, _, ih h2, rfl⟩

/-- Position in the enumeration. -/
theorem indices_rank {lead idx : List Nat} (h : Index lead idx) : (indices lead)[rank lead idx]? = some idx := by
  have e := indices_offset [] lead
  simp only [List.append_nil, List.prod_nil, Nat.cast_one, mul_one] at e
  obtain ⟨j, hj, rfl⟩ := List.getElem_of_mem (mem_indices.mpr h)
  have e2 := congrArg (·[j]?) e
  rw [indices_length] at hj
  simp only [List.getElem?_map, List.getElem?_range hj] at e2
  rw [List.getElem?_eq_getElem (by rw [indices_length]; exact hj)] at e2
  simp only [Option.map_some, Option.some.injEq] at e2
  have : rank lead (indices lead)[j] = j := by
    have := rank_eq h
    omega
  rw [this, List.getElem?_eq_getElem (by rw [indices_length]; exact hj)]

theorem rank_append (n : Nat) : ∀ {lead idx : List Nat} (k : Nat), Index lead idx →
    rank (lead ++ [n]) (idx ++ [k]) = rank lead idx * n + k
  | [], [], k, _ => by simp [rank]
  | m :: d, i :: idx, k, .cons _ h => by
    simp only [List.cons_append, rank, rank_append n k h, List.prod_append, List.prod_cons, List.prod_nil]
    ring

/-- Item of consecutive blocks of the same size. -/
theorem flatten_get {A : Type} (w : Nat) : ∀ (bs : List (List A)) (j k : Nat), (∀ b ∈ bs, b.length = w) →
    k < w → bs.flatten[j * w + k]? = (bs[j]?).bind (·[k]?)
  | [], j, k, _, _ => by simp
  | b :: bs, 0, k, h, hk => by
    have := h b (by simp)
    simp only [List.flatten_cons, Nat.zero_mul, Nat.zero_add, List.getElem?_cons_zero, Option.bind_some]
    rw [List.getElem?_append_left (by omega)]
  | b :: bs, j + 1, k, h, hk => by
    have hb := h b (by simp)
    have e : (j + 1) * w + k = b.length + (j * w + k) := by rw [hb]; ring
    rw [List.flatten_cons, e, List.getElem?_append_right (by omega), Nat.add_sub_cancel_left,
      flatten_get w bs j k (fun b hb => h b (by simp [hb])) hk, List.getElem?_cons_succ]

theorem flatten_length {A : Type} (w : Nat) : ∀ (bs : List (List A)), (∀ b ∈ bs, b.length = w) →
    bs.flatten.length = bs.length * w
  | [], _ => by simp
  | b :: bs, h => by
    rw [List.flatten_cons, List.length_append, h b (by simp), flatten_length w bs (fun b hb => h b (by simp [hb]))]
    simp
    ring

/-- `mapM` item by item. -/
theorem mapM_get {α β : Type} {f : α → Option β} : ∀ {l : List α} {r : List β}, l.mapM f = some r →
    ∀ j : Nat, (l[j]?).bind f = r[j]?
  | [], r, h, j => by
    simp only [List.mapM_nil] at h
    cases h
    simp
  | a :: l, r, h, j => by
    rw [List.mapM_cons] at h
    simp only [Option.bind_eq_bind, Option.bind_eq_some_iff] at h
    obtain ⟨b, hb, bs, hbs, h⟩ := h
    cases h
    cases j with
    | zero => simpa using hb
    | succ j => simpa using mapM_get hbs j

theorem mapM_length {α β : Type} {f : α → Option β} {l : List α} {r : List β} (h : l.mapM f = some r) :
    r.length = l.length := by
  induction l generalizing r with
  | nil => simp only [List.mapM_nil] at h; cases h; rfl
  | cons a l ih =>
    rw [List.mapM_cons] at h
    simp only [Option.bind_eq_bind, Option.bind_eq_some_iff] at h
    obtain ⟨b, hb, bs, hbs, h⟩ := h
    cases h
    simp [ih hbs]

theorem mapM_isSome {α β : Type} {f : α → Option β} : ∀ {l : List α}, (∀ a ∈ l, ∃ b, f a = some b) →
    ∃ r, l.mapM f = some r
  | [], _ => ⟨[], rfl⟩
  | a :: l, h => by
    obtain ⟨b, hb⟩ := h a (by simp)
    obtain ⟨r, hr⟩ := mapM_isSome (l := l) (fun a ha => h a (by simp [ha]))
    exact ⟨b :: r, by rw [List.mapM_cons, hb, hr]; rfl⟩

/-! ### Common shape -/

theorem compareDims_false {p c q r : List Nat} (h : p <+: q) : compareDims (q ++ r) (p ++ c) p.length = false := by
  obtain ⟨t, rfl⟩ := h
  simp only [compareDims, List.any_eq_false, List.mem_range, decide_eq_true_eq, not_not]
  intro i hi
  rw [List.append_assoc, List.getElem?_append_left hi, List.getElem?_append_left hi]

theorem compareDims_prefix {p c q r : List Nat} (hl : p.length ≤ q.length)
    (h : compareDims (q ++ r) (p ++ c) p.length = false) : p <+: q := by
  simp only [compareDims, List.any_eq_false, List.mem_range, decide_eq_true_eq, not_not] at h
  rw [List.prefix_iff_eq_take]
  apply List.ext_getElem?
  intro i
  by_cases hi : i < p.length
  · have := h i hi
    rw [List.getElem?_append_left hi, List.getElem?_append_left (by omega)] at this
    rw [List.getElem?_take_of_lt hi, this]
  · rw [List.getElem?_eq_none (by omega), List.getElem?_eq_none (by simp; omega)]

theorem commonLoop_spec : ∀ (l : List (List Nat × List Nat)) (i : Nat) (c : Common) (q r : List Nat),
    c.dims = q ++ r → c.ndim = q.length →
    ∃ q' r', (commonLoop i (l.map (fun e => (e.1 ++ e.2, e.2.length))) c).dims = q' ++ r' ∧
      (commonLoop i (l.map (fun e => (e.1 ++ e.2, e.2.length))) c).ndim = q'.length ∧
      (q' = q ∨ ∃ e ∈ l, q' = e.1) ∧ q.length ≤ q'.length ∧ ∀ e ∈ l, e.1.length ≤ q'.length
  | [], i, c, q, r, h1, h2 => ⟨q, r, h1, h2, .inl rfl, le_rfl, by simp⟩
  | e :: l, i, c, q, r, h1, h2 => by
    simp only [List.map_cons, commonLoop]
    have ht : ((e.1 ++ e.2).length : Int) - (e.2.length : Int) = e.1.length := by simp
    rw [ht]
    by_cases hc : c.ndim < e.1.length
    · rw [if_pos hc]
      obtain ⟨q', r', a, b, d, f, g⟩ := commonLoop_spec l (i + 1) ⟨i, e.1.length, e.1 ++ e.2⟩ e.1 e.2 rfl rfl
      refine ⟨q', r', a, b, .inr ?_, by omega, ?_⟩
      · rcases d with d | ⟨x, hx, d⟩
        · exact ⟨e, by simp, d⟩
        · exact ⟨x, by simp [hx], d⟩
      · intro x hx
        rcases List.mem_cons.mp hx with rfl | hx
        · exact f
        · exact g x hx
    · rw [if_neg hc]
      obtain ⟨q', r', a, b, d, f, g⟩ := commonLoop_spec l (i + 1) c q r h1 h2
      refine ⟨q', r', a, b, ?_, f, ?_⟩
      · rcases d with d | ⟨x, hx, d⟩
        · exact .inl d
        · exact .inr ⟨x, by simp [hx], d⟩
      · intro x hx
        rcases List.mem_cons.mp hx with rfl | hx
        · omega
        · exact g x hx

/-- The common shape of arrays whose leading dimensions start the dimensions `lead` of one
of them. -/
theorem commonShape_spec (l : List (List Nat × List Nat)) (lead : List Nat) (h : ∀ e ∈ l, e.1 <+: lead)
    (hm : ∃ e ∈ l, e.1 = lead) :
    ∃ r, (commonShape (l.map (fun e => (e.1 ++ e.2, e.2.length)))).dims = lead ++ r ∧
      (commonShape (l.map (fun e => (e.1 ++ e.2, e.2.length)))).ndim = lead.length := by
  cases l with
  | nil => simp at hm
  | cons e l =>
    simp only [List.map_cons, commonShape]
    have ht : ((e.1 ++ e.2).length : Int) - (e.2.length : Int) = e.1.length := by simp
    rw [ht]
    obtain ⟨q, r, a, b, d, f, g⟩ := commonLoop_spec l 1 ⟨0, e.1.length, e.1 ++ e.2⟩ e.1 e.2 rfl rfl
    have hq : q = lead := by
      have hp : q <+: lead := by
        rcases d with d | ⟨x, hx, d⟩
        · rw [d]; exact h e (by simp)
        · rw [d]; exact h x (by simp [hx])
      obtain ⟨x, hx, hl⟩ := hm
      refine hp.eq_of_length_le ?_
      rcases List.mem_cons.mp hx with rfl | hx
      · rw [← hl]; exact f
      · rw [← hl]; exact g x hx
    rw [hq] at a b
    exact ⟨r, a, b⟩

theorem checkShapes_spec (c : Common) (lead r : List Nat) (hc : c.dims = lead ++ r) :
    ∀ (l : List (List Nat × List Nat)) (i : Nat), (∀ e ∈ l, e.1 <+: lead) →
      (∀ e ∈ l, e.2.length = 2 → e.2[1]? = some 2) →
      checkShapes c i (l.map (fun e => (e.1 ++ e.2, e.2.length))) = true
  | [], _, _, _ => rfl
  | e :: l, i, h1, h2 => by
    simp only [List.map_cons, checkShapes]
    have hl : (e.1 ++ e.2).length - e.2.length = e.1.length := by simp
    rw [hl, hc, compareDims_false (h1 e (by simp)), if_neg (by simp)]
    by_cases he : e.2.length = 2
    · have : (e.1 ++ e.2)[(e.1 ++ e.2).length - 1]? = some 2 := by
        rw [List.getElem?_append_right (by simp; omega)]
        rw [← h2 e (by simp) he]
        congr 1
        simp
        omega
      rw [this, if_neg (by simp)]
      exact checkShapes_spec c lead r hc l (i + 1) (fun e he => h1 e (by simp [he])) (fun e he => h2 e (by simp [he]))
    · rw [if_neg (by simp [he])]
      exact checkShapes_spec c lead r hc l (i + 1) (fun e he => h1 e (by simp [he])) (fun e he => h2 e (by simp [he]))

end Verif.Arr
