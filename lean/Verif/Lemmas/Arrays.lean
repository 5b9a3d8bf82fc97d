/-
Lemmas on the recursion over strided arrays.
-/
import Verif.Model.Arrays
import Verif.Lemmas.Buffer
import Mathlib.Data.List.Infix
import Mathlib.Tactic.Ring
import Mathlib.Tactic.Linarith
import Mathlib.Algebra.BigOperators.Group.List.Basic

set_option linter.unusedSectionVars false

namespace Verif.Arr

open Verif.Buf

/-- All indices of an array with the given dimensions, the last index runs first. -/
def indices : List Nat → List (List Nat)
  | [] => [[]]
  | n :: d => (List.range n).flatMap (fun i => (indices d).map (fun idx => i :: idx))

/-- Distance of an item from the first one. -/
def offset : List Nat → List Int → Int
  | i :: idx, s :: t => i * s + offset idx t
  | _, _ => 0

/-- Array at a leading index. -/
def sub (a : ArrD) (idx : List Nat) : ArrD :=
  ⟨a.data + offset idx a.stride, a.dim.drop idx.length, a.stride.drop idx.length⟩

/-- Array at a leading index, as far as it has the dimensions. -/
def at' : Option Nat → ArrD → List Nat → ArrD
  | none, a, idx => sub a idx
  | some g, a, idx => sub a (idx.take (a.dim.length - g))

/-- The array has the leading dimensions `lead` (or, if guarded, the first of them followed
by as many dimensions as the guard). -/
def Fits (lead : List Nat) : Option Nat → ArrD → Prop
  | none, a => a.stride.length = a.dim.length ∧ lead <+: a.dim
  | some g, a => a.stride.length = a.dim.length ∧ ((∃ p c, a.dim = p ++ c ∧ c.length = g ∧ p <+: lead) ∨
      (lead <+: a.dim ∧ lead.length + g ≤ a.dim.length))

theorem offset_nil (t : List Int) : offset [] t = 0 := by cases t <;> rfl

theorem sub_nil (a : ArrD) : sub a [] = a := by
  cases a; simp [sub, offset_nil]

theorem sub_cons {a : ArrD} {i : Nat} {x : ArrD} (h : itemNocheck a i = some x) (idx : List Nat) :
    sub a (i :: idx) = sub x idx := by
  obtain ⟨p, d, s⟩ := a
  unfold itemNocheck at h
  cases d with
  | nil => simp at h
  | cons n d =>
    cases s with
    | nil => simp at h
    | cons s t =>
      simp only [Option.some.injEq] at h
      subst h
      simp [sub, offset]
      ring

theorem item_fits {n : Nat} {lead : List Nat} {g : Option Nat} {a : ArrD} (h : Fits (n :: lead) g a) (i : Nat) :
    ∃ x, item g a i = some x ∧ Fits lead g x ∧ ∀ idx, at' g a (i :: idx) = at' g x idx := by
  obtain ⟨p, d, s⟩ := a
  cases g with
  | none =>
    obtain ⟨h1, t, h2⟩ := h
    cases d with
    | nil => simp at h2
    | cons m d =>
      cases s with
      | nil => simp at h1
      | cons s' s =>
        refine ⟨⟨p + i * s', d, s⟩, rfl, ⟨by simpa using h1, t, ?_⟩, fun idx => ?_⟩
        · simp only [List.cons_append, List.cons.injEq] at h2
          exact h2.2
        · exact sub_cons rfl idx
  | some g =>
    obtain ⟨h1, ⟨q, c, h2, h3, h4⟩ | ⟨⟨t, h2⟩, h3⟩⟩ := h
    swap
    · cases d with
      | nil => simp at h2
      | cons m d =>
        cases s with
        | nil => simp at h1
        | cons s' s =>
          simp only [List.cons_append, List.cons.injEq] at h2
          simp only [List.length_cons] at h3
          refine ⟨⟨p + i * s', d, s⟩, ?_, ⟨by simpa using h1, .inr ⟨⟨t, h2.2⟩, by show lead.length + g ≤ d.length; omega⟩⟩,
            fun idx => ?_⟩
          · simp only [item, itemGuard, List.length_cons]
            rw [if_neg (by omega)]
            rfl
          · simp only [at', List.length_cons]
            rw [show d.length + 1 - g = (d.length - g) + 1 by omega, List.take_succ_cons]
            exact sub_cons rfl _
    cases q with
    | nil =>
      simp only [List.nil_append] at h2
      have hl : d.length ≤ g := by rw [← h3, h2]
      refine ⟨⟨p, d, s⟩, by simp [item, itemGuard, hl], ⟨h1, .inl ⟨[], c, h2, h3, List.nil_prefix⟩⟩, fun idx => ?_⟩
      simp only [at', show d.length - g = 0 by omega, List.take_zero]
    | cons m q =>
      simp only [List.cons_append] at h2
      subst h2
      have hl : ¬(m :: (q ++ c)).length ≤ g := by simp [← h3]; omega
      cases s with
      | nil => simp at h1
      | cons s' s =>
        refine ⟨⟨p + i * s', q ++ c, s⟩, by simp only [item, itemGuard, hl, if_false]; rfl,
          ⟨by simpa using h1, .inl ⟨q, c, rfl, h3, ?_⟩⟩, fun idx => ?_⟩
        · obtain ⟨t, ht⟩ := h4
          simp only [List.cons_append, List.cons.injEq] at ht
          exact ⟨t, ht.2⟩
        · simp only [at']
          rw [show (m :: (q ++ c)).length - g = (q ++ c).length - g + 1 by
            simp only [List.length_cons, List.length_append, ← h3]; omega, List.take_succ_cons]
          exact sub_cons rfl _

theorem items_fits {n : Nat} {lead : List Nat} (i : Nat) : ∀ {gs : List (Option Nat)} {as : List ArrD},
    List.Forall₂ (Fits (n :: lead)) gs as → ∃ xs, items gs as i = some xs ∧
      List.Forall₂ (Fits lead) gs xs ∧
      ∀ idx, List.zipWith (fun g a => at' g a (i :: idx)) gs as = List.zipWith (fun g a => at' g a idx) gs xs
  | [], [], _ => ⟨[], rfl, .nil, fun _ => rfl⟩
  | g :: gs, a :: as, .cons h hs => by
    obtain ⟨x, e, f, k⟩ := item_fits h i
    obtain ⟨xs, e', f', k'⟩ := items_fits i hs
    exact ⟨x :: xs, by rw [items, e, e']; rfl, .cons f f', fun idx => by simp [k, k']⟩

variable {S : Type}

theorem forUp_foldlM (f : Nat → S → Option S) : ∀ (k a : Nat) (s : S),
    forUp k a f s = (List.range' a k).foldlM (fun s i => f i s) s
  | 0, _, _ => rfl
  | k + 1, a, s => by
    rw [forUp, List.range'_succ, List.foldlM_cons]
    congr 1
    funext s
    exact forUp_foldlM f k (a + 1) s

theorem forBelow_foldlM (f : Nat → S → Option S) (n : Nat) (s : S) :
    forBelow 0 n f s = (List.range n).foldlM (fun s i => f i s) s := by
  rw [forBelow, forUp_foldlM, List.range_eq_range', Nat.sub_zero]

theorem foldlM_flatMap {α β : Type} (f : S → β → Option S) (g : α → List β) : ∀ (l : List α) (s : S),
    (l.flatMap g).foldlM f s = l.foldlM (fun s a => (g a).foldlM f s) s
  | [], _ => rfl
  | a :: l, s => by
    rw [List.flatMap_cons, List.foldlM_append, List.foldlM_cons]
    congr 1
    funext s
    exact foldlM_flatMap f g l s

/-- The recursion visits the leaves of all indices, in order. -/
theorem walk_eq (gs : List (Option Nat)) (leaf : List ArrD → S → Option S) (core : List Nat) :
    ∀ (lead : List Nat) (as : List ArrD) (s : S), List.Forall₂ (Fits lead) gs as →
      walk gs core.length leaf (lead ++ core) as s =
        (indices lead).foldlM (fun s idx => leaf (List.zipWith (fun g a => at' g a idx) gs as) s) s
  | [], as, s, h => by
    have hz : List.zipWith (fun g a => at' g a []) gs as = as := by
      induction h with
      | nil => rfl
      | @cons g a gs as h _ ih =>
        rw [List.zipWith_cons_cons, ih]
        cases g <;> simp [at', sub_nil]
    simp only [indices, List.foldlM_cons, List.foldlM_nil, hz, List.nil_append]
    cases core with
    | nil => simp [walk]
    | cons n d => simp [walk]
  | n :: lead, as, s, h => by
    rw [List.cons_append, walk, if_pos (by simp; omega), forBelow_foldlM, indices, foldlM_flatMap]
    congr 1
    funext s i
    obtain ⟨xs, e, f, k⟩ := items_fits i h
    rw [e, List.foldlM_map]
    show walk gs core.length leaf (lead ++ core) xs s = _
    rw [walk_eq gs leaf core lead xs s f]
    congr 1
    funext s idx
    rw [k]

/-! ### Contiguous arrays -/

theorem cstrides_length : ∀ d, (cstrides d).length = d.length
  | [] => rfl
  | _ :: d => by simp [cstrides, cstrides_length d]

theorem range_flatMap (w : Nat) (m : Nat) : ∀ n : Nat,
    (List.range n).flatMap (fun i => (List.range m).map (fun k : Nat => ((i * m + k : Nat) : Int) * w)) =
      (List.range (n * m)).map (fun k : Nat => (k : Int) * w)
  | 0 => by simp
  | n + 1 => by
    rw [List.range_succ, List.flatMap_append, range_flatMap w m n, show (n + 1) * m = n * m + m by ring,
      List.range_add, List.map_append, List.map_map]
    simp [Function.comp_def]

/-- The items of a contiguous array follow each other. -/
theorem indices_offset (core : List Nat) : ∀ lead : List Nat,
    (indices lead).map (fun idx => offset idx (cstrides (lead ++ core))) =
      (List.range lead.prod).map (fun k : Nat => (k : Int) * core.prod)
  | [] => by simp [indices, offset_nil]
  | n :: d => by
    rw [List.prod_cons, ← range_flatMap, indices, List.map_flatMap]
    congr 1
    funext i
    rw [List.map_map]
    have := indices_offset core d
    have e : (fun idx => offset idx (cstrides (n :: d ++ core))) ∘ (fun idx => i :: idx) =
        (fun x => (i : Int) * (d ++ core).prod + x) ∘ fun idx => offset idx (cstrides (d ++ core)) := by
      funext idx; rfl
    rw [e, ← List.map_map, this, List.map_map]
    congr 1
    funext k
    simp only [Function.comp, List.prod_append]
    push_cast
    ring

theorem indices_length : ∀ lead, (indices lead).length = lead.prod
  | [] => rfl
  | n :: d => by
    rw [indices, List.length_flatMap, List.prod_cons]
    simp [indices_length d]

theorem indices_valid : ∀ {lead idx : List Nat}, idx ∈ indices lead → List.Forall₂ (· < ·) idx lead
  | [], idx, h => by simp [indices] at h; subst h; exact .nil
  | n :: d, idx, h => by
    simp only [indices, List.mem_flatMap, List.mem_range, List.mem_map] at h
    obtain ⟨i, hi, t, ht, rfl⟩ := h
    exact .cons hi (indices_valid ht)

/-! ### Sequential writing -/

variable {A : Type}

theorem wrList_append (pre mid post vals : List A) (h : mid.length = vals.length) :
    wrList (pre ++ mid ++ post) pre.length vals = some (pre ++ vals ++ post) := by
  induction vals generalizing pre mid with
  | nil => cases mid <;> simp [wrList] at h ⊢
  | cons v vs ih =>
    cases mid with
    | nil => simp at h
    | cons m mid =>
      have hw : wrI (pre ++ m :: mid ++ post) (pre.length : Int) v =
          some ((pre ++ [v]) ++ mid ++ post) := by
        unfold wrI
        rw [if_pos (by omega), Int.toNat_natCast, wr_eq _ (by simp)]
        simp
      rw [wrList, hw]
      show wrList _ _ _ = _
      have := ih (pre ++ [v]) mid (by simpa using h)
      simpa using this

/-- Each step computes a block and writes it at the address of its index. -/
theorem fold_write {α St : Type} (w : Nat) (f : α → St → Option (St × List A)) (ad : α → Int) :
    ∀ (l : List α) (st : St) (pre buf : List A),
      (∀ a ∈ l, ∀ s s' vs, f a s = some (s', vs) → vs.length = w) →
      buf.length = l.length * w →
      l.map ad = (List.range l.length).map (fun k => ((pre.length + k * w : Nat) : Int)) →
      l.foldlM (fun (x : St × List A) a => (f a x.1).bind (fun r =>
          (wrList x.2 (ad a) r.2).map (fun b => (r.1, b)))) (st, pre ++ buf) =
        l.foldlM (fun (x : St × List A) a => (f a x.1).map (fun r => (r.1, x.2 ++ r.2))) (st, pre)
  | [], st, pre, buf, _, hb, _ => by
    have : buf = [] := by simpa using hb
    simp [this]
  | a :: l, st, pre, buf, hf, hb, had => by
    rw [List.foldlM_cons, List.foldlM_cons]
    cases hfa : f a st with
    | none => rfl
    | some r =>
      obtain ⟨s', vs⟩ := r
      have hvs := hf a (by simp) st s' vs hfa
      simp only [List.length_cons, List.range_succ_eq_map, List.map_cons, List.map_map,
        List.cons.injEq] at had
      obtain ⟨h1, h2⟩ := had
      have hw : wrList (pre ++ buf) (ad a) vs = some ((pre ++ vs) ++ buf.drop w) := by
        have := wrList_append pre (buf.take w) (buf.drop w) vs
          (by rw [List.length_take, hvs, hb]; simp; nlinarith)
        rw [h1]
        simpa [List.append_assoc, List.take_append_drop] using this
      simp only [Option.bind_eq_bind, Option.bind_some, hw, Option.map_some]
      rw [fold_write w f ad l s' (pre ++ vs) (buf.drop w) (fun a ha => hf a (by simp [ha])) ?_ ?_]
      · rw [List.length_drop, hb]; simp; ring_nf; omega
      · rw [h2]
        congr 1
        funext k
        simp only [Function.comp, List.length_append, hvs]
        rw [Nat.succ_eq_add_one]
        congr 1
        ring

end Verif.Arr
