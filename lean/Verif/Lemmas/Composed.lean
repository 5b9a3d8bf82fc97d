import Verif.Lemmas.Coefficients
import Mathlib.Order.Lattice
import Mathlib.Tactic.Order
import Mathlib.Order.BoundedOrder.Lattice

set_option linter.unusedSectionVars false

namespace Verif.Coeffs

open Verif.Spec

section validity
variable {T : Type} [LinearOrder T]

theorem validityLe_trans (a b c : Info T) (h1 : validityLe a b = true) (h2 : validityLe b c = true) :
    validityLe a c = true := by
  unfold validityLe at *
  split at h1 <;> split at h2 <;> split <;> simp only [decide_eq_true_eq] at * <;> try order
  all_goals (rename_i e1 e2 e3)
  all_goals first
    | (exfalso; order)
    | order

theorem validityLe_total (a b : Info T) : (validityLe a b || validityLe b a) = true := by
  unfold validityLe
  rw [Bool.or_eq_true]
  split <;> split <;> simp only [decide_eq_true_eq] <;> first | exact le_total _ _ | (exfalso; simp_all)

theorem validityLe_vs (a b : Info T) (h : validityLe a b = true) : a.vs ≤ b.vs := by
  unfold validityLe at h
  split at h
  · rename_i e; exact le_of_eq e
  · simpa using h

theorem sorted_items (items : List (Info T)) :
    (items.mergeSort validityLe).Pairwise (fun a b => validityLe a b = true) :=
  List.pairwise_mergeSort validityLe_trans validityLe_total items

/-- What a successful loop tells: `C` is the set already covered. -/
theorem composedLoop_sound (b : Bool) (l : List (Info T)) (last vs ve : T) (d md : Int)
    (r : T × T × Int × Int) (h : composedLoop b l last vs ve d md = some r)
    (C : T → Prop) (hlast : last ≤ ve) (hC : ∀ t, vs ≤ t → t ≤ ve → C t)
    (hs : l.Pairwise (fun a b => a.vs ≤ b.vs)) (hvs : ∀ i ∈ l, vs ≤ i.vs) :
    (∀ t, r.1 ≤ t → t ≤ r.2.1 → C t ∨ ∃ i ∈ l, i.vs ≤ t ∧ t ≤ i.ve) ∧ r.1 = vs ∧
      ve ≤ r.2.1 ∧ (∀ i ∈ l, i.ve ≤ r.2.1) ∧ (r.2.1 = ve ∨ ∃ i ∈ l, i.ve = r.2.1) ∧
      d ≤ r.2.2.1 ∧ (∀ i ∈ l, i.degree ≤ r.2.2.1) ∧ (r.2.2.1 = d ∨ ∃ i ∈ l, i.degree = r.2.2.1) ∧
      r.2.2.2 ≤ md ∧ (∀ i ∈ l, r.2.2.2 ≤ i.minDegree) ∧
        (r.2.2.2 = md ∨ ∃ i ∈ l, i.minDegree = r.2.2.2) ∧
      ∀ i ∈ l, i.isInternal = b := by
  induction l generalizing last vs ve d md C with
  | nil =>
    simp only [composedLoop, Option.some.injEq] at h
    subst h
    simp
    exact hC
  | cons i l ih =>
    unfold composedLoop at h
    split at h
    · exact absurd h (by simp)
    rename_i hgap
    split at h
    · exact absurd h (by simp)
    rename_i hint
    rw [List.pairwise_cons] at hs
    have hi := hvs i (by simp)
    rw [min_eq_left hi] at h
    obtain ⟨h1, h2, h3, h4, h5, h6, h7, h8, h9, h10, h11, h12⟩ := ih i.ve vs (max ve i.ve) _ _ h
      (fun t => C t ∨ (i.vs ≤ t ∧ t ≤ i.ve)) (le_max_right _ _)
      (by
        intro t ht1 ht2
        by_cases hte : t ≤ ve
        · left; exact hC t ht1 hte
        · right
          rcases le_max_iff.mp ht2 with h | h
          · exact absurd h hte
          · exact ⟨le_trans (le_trans (not_lt.mp hgap) hlast) (not_le.mp hte).le, h⟩)
      hs.2 (fun x hx => hvs x (List.mem_cons_of_mem _ hx))
    refine ⟨?_, h2, ?_, ?_, ?_, ?_, ?_, ?_, ?_, ?_, ?_, ?_⟩
    · intro t ht1 ht2
      rcases h1 t ht1 ht2 with (h | h) | ⟨x, hx, h⟩
      · left; exact h
      · right; exact ⟨i, by simp, h⟩
      · right; exact ⟨x, List.mem_cons_of_mem _ hx, h⟩
    · exact le_trans (le_max_left _ _) h3
    · intro x hx
      rcases List.mem_cons.mp hx with rfl | hx
      · exact le_trans (le_max_right _ _) h3
      · exact h4 x hx
    · rcases h5 with h | ⟨x, hx, h⟩
      · rcases max_choice ve i.ve with hm | hm
        · left; rw [h, hm]
        · right; exact ⟨i, by simp, by rw [h, hm]⟩
      · right; exact ⟨x, List.mem_cons_of_mem _ hx, h⟩
    · exact le_trans (le_max_left _ _) h6
    · intro x hx
      rcases List.mem_cons.mp hx with rfl | hx
      · exact le_trans (le_max_right _ _) h6
      · exact h7 x hx
    · rcases h8 with h | ⟨x, hx, h⟩
      · rcases max_choice d i.degree with hm | hm
        · left; rw [h, hm]
        · right; exact ⟨i, by simp, by rw [h, hm]⟩
      · right; exact ⟨x, List.mem_cons_of_mem _ hx, h⟩
    · exact le_trans h9 (min_le_left _ _)
    · intro x hx
      rcases List.mem_cons.mp hx with rfl | hx
      · exact le_trans h9 (min_le_right _ _)
      · exact h10 x hx
    · rcases h11 with h | ⟨x, hx, h⟩
      · rcases min_choice md i.minDegree with hm | hm
        · left; rw [h, hm]
        · right; exact ⟨i, by simp, by rw [h, hm]⟩
      · right; exact ⟨x, List.mem_cons_of_mem _ hx, h⟩
    · intro x hx
      rcases List.mem_cons.mp hx with rfl | hx
      · simpa using Eq.symm (not_not.mp hint)
      · exact h12 x hx

theorem composedLoop_complete (b : Bool) (l : List (Info T)) (last vs ve : T) (d md : Int)
    (hint : ∀ i ∈ l, i.isInternal = b)
    (hfirst : ∀ i, l.head? = some i → i.vs ≤ last)
    (hstep : l.IsChain (fun a c => c.vs ≤ a.ve)) :
    ∃ r, composedLoop b l last vs ve d md = some r := by
  induction l generalizing last vs ve d md with
  | nil => exact ⟨_, rfl⟩
  | cons i l ih =>
    unfold composedLoop
    rw [if_neg (not_lt.mpr (hfirst i rfl)), if_neg (by rw [hint i (by simp)]; simp)]
    apply ih
    · intro x hx; exact hint x (List.mem_cons_of_mem _ hx)
    · intro x hx
      cases l with
      | nil => simp at hx
      | cons y l =>
        simp only [List.head?_cons, Option.some.injEq] at hx
        subst hx
        exact (List.isChain_cons_cons.mp hstep).1
    · cases l with
      | nil => exact List.IsChain.nil
      | cons y l => exact (List.isChain_cons_cons.mp hstep).2

end validity

section eval
variable {T V : Type} [Zero V]

/-- A member whose evaluations never fail, have the size of the returned degree, and
whose evaluation at an array of times is the stack of single evaluations, up to zero
padding. -/
structure Coherent (m : Member T V) : Prop where
  single_ok : ∀ t, ∃ tab d, m.single t = some (tab, d) ∧ 0 ≤ d ∧ (tab.length : Int) = coeffSize d
  multi_ok : ∀ ts, ∃ tabs d, m.multi ts = some (tabs, d) ∧ 0 ≤ d ∧
    List.Forall₂ (fun t tab => (tab.length : Int) = coeffSize d ∧
      ∃ tab1 d1, m.single t = some (tab1, d1) ∧ SameCells tab tab1) ts tabs

theorem coeffSize_mono (a b : Int) (h0 : 0 ≤ a) (h : a ≤ b) : coeffSize a ≤ coeffSize b := by
  have h1 := two_size a
  have h2 := two_size b
  have h3 : (a + 2) * (a + 1) ≤ (b + 2) * (b + 1) := by nlinarith
  omega

theorem coeffSize_pos (a : Int) (h0 : 0 ≤ a) : 0 < coeffSize a := by
  have h1 := two_size a
  have h3 : 0 < (a + 2) * (a + 1) := by positivity
  omega

theorem zeros_length (d : Int) : (zeros V d).length = (coeffSize d).toNat := by
  simp [zeros]

theorem overwrite_zeros (d : Int) (tab : Tab V) (h : tab.length ≤ (zeros V d).length) :
    SameCells (tab ++ (zeros V d).drop tab.length) tab := by
  intro r c
  unfold cell
  by_cases hr : r < tab.length
  · rw [List.getElem?_append_left hr]
  · rw [List.getElem?_append_right (by omega), List.getElem?_eq_none (l := tab) (by omega)]
    simp only [zeros, List.drop_replicate, List.getElem?_replicate]
    split
    · rename_i h1
      split at h1
      · simp only [Option.some.injEq, Prod.mk.injEq] at h1
        obtain ⟨rfl, rfl⟩ := h1
        simp
      · simp at h1
    · rfl

theorem select_length_le (mask : List Bool) (ts : List T) : (select mask ts).length ≤ ts.length := by
  induction ts generalizing mask with
  | nil => cases mask with
    | nil => simp [select]
    | cons b m => cases b <;> simp [select]
  | cons t ts ih => cases mask with
    | nil => simp [select]
    | cons b m =>
      have := ih m
      cases b <;> simp [select] <;> omega

theorem scatter_spec (R : T → Tab V → Prop) (size : Nat) (mask : List Bool) (times : List T)
    (tabs acc : List (Tab V)) (hm : mask.length = times.length) (ha : acc.length = times.length)
    (hsz : ∀ a ∈ acc, a.length = size)
    (hR : List.Forall₂ (fun t tab => tab.length ≤ size ∧ R t tab) (select mask times) tabs) :
    ∃ out, ∃ ho : out.length = times.length, scatter mask tabs acc = some out ∧
      ∀ p (hp : p < times.length), (out[p]).length = size ∧
        (mask[p] = true → ∃ tab, tab.length ≤ size ∧ R times[p] tab ∧
          out[p] = tab ++ (acc[p]).drop tab.length) ∧
        (mask[p] = false → out[p] = acc[p]) := by
  induction times generalizing mask tabs acc with
  | nil =>
    have h1 := List.length_eq_zero_iff.mp hm
    have h2 := List.length_eq_zero_iff.mp ha
    subst h1; subst h2
    simp only [select, List.forall₂_nil_left_iff] at hR
    subst hR
    exact ⟨[], rfl, rfl, fun p hp => absurd hp (by simp)⟩
  | cons t ts ih =>
    obtain ⟨b, m, rfl⟩ : ∃ b m, mask = b :: m := by
      cases mask with
      | nil => simp at hm
      | cons b m => exact ⟨b, m, rfl⟩
    obtain ⟨a, acc, rfl⟩ : ∃ a l, acc = a :: l := by
      cases acc with
      | nil => simp at ha
      | cons a l => exact ⟨a, l, rfl⟩
    have hm' : m.length = ts.length := by simpa using hm
    have ha' : acc.length = ts.length := by simpa using ha
    have hsa := hsz a (by simp)
    cases b with
    | false =>
      simp only [select] at hR
      obtain ⟨out, ho, hs, hout⟩ := ih m tabs acc hm' ha' (fun x hx => hsz x (List.mem_cons_of_mem _ hx)) hR
      refine ⟨a :: out, by simp [ho], ?_, ?_⟩
      · cases tabs <;> simp [scatter, hs]
      · intro p hp
        cases p with
        | zero => exact ⟨by simpa using hsa, by simp, by simp⟩
        | succ p => simpa using hout p (by simpa using hp)
    | true =>
      simp only [select] at hR
      cases hR with
      | cons h1 h2 =>
        rename_i tab tabs
        obtain ⟨out, ho, hs, hout⟩ := ih m tabs acc hm' ha' (fun x hx => hsz x (List.mem_cons_of_mem _ hx)) h2
        refine ⟨(tab ++ a.drop tab.length) :: out, by simp [ho], ?_, ?_⟩
        · simp [scatter, hs, overwrite, hsa, h1.1]
        · intro p hp
          cases p with
          | zero =>
            refine ⟨?_, ?_, by simp⟩
            · simp only [List.getElem_cons_zero, List.length_append, List.length_drop, hsa]
              have := h1.1
              omega
            · intro _
              exact ⟨tab, h1.1, h1.2, rfl⟩
          | succ p => simpa using hout p (by simpa using hp)

theorem multiLoop_spec (times : List T) (items : List (Member T V)) (mask : List Bool) (d0 : Int)
    (hc : ∀ i ∈ items, Coherent i) (hm : mask.length = times.length) :
    ∃ d res m', ∃ hm' : m'.length = times.length,
      multiLoop times items mask d0 = some (d, res, m') ∧ d0 ≤ d ∧
      (∀ p (hp : p < times.length), m'[p] = (mask[p] && (items.find? (fun i => i.valid times[p])).isNone)) ∧
      ∀ D, d ≤ D → ∀ acc : List (Tab V), (ha : acc.length = times.length) →
        (∀ a ∈ acc, a.length = (coeffSize D).toNat) →
        ∃ out, ∃ ho : out.length = times.length,
          res.foldlM (fun acc r => scatter r.1 r.2 acc) acc = some out ∧
          ∀ p (hp : p < times.length), (out[p]).length = (coeffSize D).toNat ∧
            (mask[p] = true → ∀ i, items.find? (fun i => i.valid times[p]) = some i →
              ∃ tab, tab.length ≤ (coeffSize D).toNat ∧
                (∃ tab1 d1, i.single times[p] = some (tab1, d1) ∧ SameCells tab tab1) ∧
                out[p] = tab ++ (acc[p]).drop tab.length) ∧
            ((mask[p] = false ∨ items.find? (fun i => i.valid times[p]) = none) → out[p] = acc[p]) := by
  induction items generalizing mask d0 with
  | nil =>
    refine ⟨d0, [], mask, hm, rfl, le_refl _, by simp, ?_⟩
    intro D hD acc ha hsz
    refine ⟨acc, ha, rfl, ?_⟩
    intro p hp
    exact ⟨hsz _ (List.getElem_mem _), by simp, by simp⟩
  | cons item items ih =>
    set itemMask := List.zipWith (fun b t => b && item.valid t) mask times with him
    set mask' := List.zipWith (fun b c => b && !c) mask itemMask with hmk
    have him' : itemMask.length = times.length := by simp [him, hm]
    have hmk' : mask'.length = times.length := by simp [hmk, him', hm]
    have hmv : ∀ p (hp : p < times.length), itemMask[p] = (mask[p] && item.valid times[p]) := by
      intro p hp; simp [him]
    have hmv' : ∀ p (hp : p < times.length), mask'[p] = (mask[p] && !item.valid times[p]) := by
      intro p hp
      simp only [hmk, List.getElem_zipWith, hmv p hp]
      cases mask[p] <;> simp
    obtain ⟨tabs, di, hmul, hd0, hF⟩ := (hc item (by simp)).multi_ok (select itemMask times)
    obtain ⟨d, res, m', hm', hloop, hle, hmask, hfold⟩ := ih mask' (max d0 di)
      (fun i hi => hc i (List.mem_cons_of_mem _ hi)) hmk'
    refine ⟨d, (itemMask, tabs) :: res, m', hm', ?_, le_trans (le_max_left _ _) hle, ?_, ?_⟩
    · simp [multiLoop, ← him, ← hmk, hmul, hloop]
    · intro p hp
      rw [hmask p hp, hmv' p hp, List.find?_cons]
      cases item.valid times[p] <;> simp
    · intro D hD acc ha hsz
      have hdi : di ≤ D := le_trans (le_trans (le_max_right _ _) hle) hD
      have hmono := coeffSize_mono di D hd0 hdi
      obtain ⟨out1, ho1, hs1, hp1⟩ := scatter_spec
        (fun t tab => ∃ tab1 d1, item.single t = some (tab1, d1) ∧ SameCells tab tab1)
        (coeffSize D).toNat itemMask times tabs acc him' ha hsz
        (hF.imp (fun t tab h => ⟨by have := h.1; omega, h.2⟩))
      obtain ⟨out, ho, hs, hp2⟩ := hfold D hD out1 ho1 (by
        intro a hin
        obtain ⟨p, hp, rfl⟩ := List.getElem_of_mem hin
        exact (hp1 p (by omega)).1)
      refine ⟨out, ho, ?_, ?_⟩
      · simp [List.foldlM_cons, hs1, hs]
      · intro p hp
        obtain ⟨h1, h2, h3⟩ := hp1 p hp
        obtain ⟨h4, h5, h6⟩ := hp2 p hp
        rw [hmv p hp] at h2 h3
        rw [hmv' p hp] at h5 h6
        refine ⟨h4, ?_, ?_⟩
        · intro hmp i hfind
          rw [List.find?_cons] at hfind
          cases hval : item.valid times[p] with
          | true =>
            rw [hval] at hfind h2 h6
            simp only [Option.some.injEq] at hfind
            subst hfind
            rw [h6 (by simp)]
            exact h2 (by simp [hmp])
          | false =>
            rw [hval] at hfind h3 h5
            obtain ⟨tab, ha1, ha2, ha3⟩ := h5 (by simp [hmp]) i hfind
            exact ⟨tab, ha1, ha2, by rw [ha3, h3 (by simp)]⟩
        · intro hmp
          rw [List.find?_cons] at hmp
          cases hval : item.valid times[p] with
          | true =>
            rw [hval] at hmp h3 h6
            simp only [reduceCtorEq, or_false] at hmp
            rw [h6 (by simp), h3 (by simp [hmp])]
          | false =>
            rw [hval] at hmp h3 h6
            rw [h6 (by simpa using hmp), h3 (by simp)]

theorem composedSingle_ok (items : List (Member T V)) (hne : items ≠ [])
    (hc : ∀ i ∈ items, Coherent i) (t : T) :
    ∃ tab d, composedSingle items t = some (tab, d) ∧ 0 ≤ d ∧ (tab.length : Int) = coeffSize d := by
  unfold composedSingle
  cases hf : items.find? (fun i => i.valid t) with
  | some i => exact (hc i (List.mem_of_find?_eq_some hf)).single_ok t
  | none =>
    obtain ⟨x, l, rfl⟩ := List.exists_cons_of_ne_nil hne
    exact (hc x (by simp)).single_ok t

theorem composedMulti_spec (items : List (Member T V)) (hne : items ≠ [])
    (hc : ∀ i ∈ items, Coherent i) (times : List T) :
    ∃ tabs d, composedMulti items times = some (tabs, d) ∧ 0 ≤ d ∧
      List.Forall₂ (fun t tab => (tab.length : Int) = coeffSize d ∧
        ∃ tab1 d1, composedSingle items t = some (tab1, d1) ∧ SameCells tab tab1) times tabs := by
  obtain ⟨d, res, m', hm', hloop, hle, hmask, hfold⟩ := multiLoop_spec times items
    (List.replicate times.length true) 0 hc (by simp)
  obtain ⟨first, rest, rfl⟩ := List.exists_cons_of_ne_nil hne
  obtain ⟨tabs0, d00, hmul, hd0, hF⟩ := (hc first (by simp)).multi_ok (select m' times)
  set D := max d d00 with hD
  have hD0 : 0 ≤ D := le_trans hle (le_max_left _ _)
  have hDs := coeffSize_pos D hD0
  obtain ⟨out1, ho1, hs1, hp1⟩ := hfold D (le_max_left _ _)
    (List.replicate times.length (zeros V D)) (by simp)
    (by intro a ha; rw [List.eq_of_mem_replicate ha, zeros_length])
  have hmono := coeffSize_mono d00 D hd0 (le_max_right _ _)
  obtain ⟨out, ho, hs, hp2⟩ := scatter_spec
    (fun t tab => ∃ tab1 d1, first.single t = some (tab1, d1) ∧ SameCells tab tab1)
    (coeffSize D).toNat m' times tabs0 out1 hm' ho1
    (by
      intro a hin
      obtain ⟨p, hp, rfl⟩ := List.getElem_of_mem hin
      exact (hp1 p (by omega)).1)
    (hF.imp (fun t tab h => ⟨by have := h.1; omega, h.2⟩))
  refine ⟨out, D, ?_, hD0, ?_⟩
  · unfold composedMulti
    simp only [hloop, Option.bind_eq_bind, Option.bind_some, List.head?_cons, hmul, ← hD,
      List.foldlM_append, hs1, List.foldlM_cons, hs, List.foldlM_nil, Option.pure_def]
  · rw [List.forall₂_iff_get]
    refine ⟨ho.symm, ?_⟩
    intro p hp hp'
    simp only [List.get_eq_getElem]
    obtain ⟨h1, h2, h3⟩ := hp1 p hp
    obtain ⟨h4, h5, h6⟩ := hp2 p hp
    rw [hmask p hp] at h5 h6
    refine ⟨by rw [h4]; omega, ?_⟩
    simp only [List.getElem_replicate, Bool.true_and] at h2 h3 h5 h6
    unfold composedSingle
    cases hf : List.find? (fun i => i.valid times[p]) (first :: rest) with
    | some i =>
      rw [hf] at h5 h6
      obtain ⟨tab, g1, ⟨tab1, d1, g2, g3⟩, g4⟩ := h2 trivial i hf
      refine ⟨tab1, d1, g2, ?_⟩
      rw [h6 (by simp), g4]
      intro r c
      rw [overwrite_zeros D tab (by rw [zeros_length]; exact g1), g3]
    | none =>
      rw [hf] at h5 h6
      obtain ⟨tab, g1, ⟨tab1, d1, g2, g3⟩, g4⟩ := h5 (by simp)
      refine ⟨tab1, d1, g2, ?_⟩
      rw [g4, h3 (Or.inr hf)]
      intro r c
      rw [overwrite_zeros D tab (by rw [zeros_length]; exact g1), g3]

end eval

section combined
variable {T V : Type} [AddZeroClass V]

theorem addInto_spec (acc item : Tab V) (h : item.length ≤ acc.length) :
    ∃ out, addInto acc item = some out ∧ out.length = acc.length ∧
      ∀ r c, cell out r c = cell acc r c + cell item r c := by
  unfold addInto
  rw [if_pos h]
  refine ⟨_, rfl, by simp; omega, ?_⟩
  intro r c
  unfold cell
  by_cases hr : r < item.length
  · rw [List.getElem?_append_left (by simp; omega)]
    rw [List.getElem?_eq_getElem (by simp; omega), List.getElem?_eq_getElem (l := acc) (by omega),
      List.getElem?_eq_getElem hr]
    simp only [List.getElem_zipWith]
    cases c <;> simp
  · rw [List.getElem?_append_right (by simp; omega), List.getElem?_eq_none (l := item) (by omega)]
    simp only [List.getElem?_drop, List.length_zipWith, add_zero]
    rw [show item.length + (r - min acc.length item.length) = r by omega]

/-- Entry-wise left to right sum. -/
theorem foldlM_addInto (results : List (Tab V × Int)) (acc : Tab V)
    (h : ∀ r ∈ results, r.1.length ≤ acc.length) :
    ∃ out, results.foldlM (fun acc r => addInto acc r.1) acc = some out ∧
      out.length = acc.length ∧
      ∀ r c, cell out r c = results.foldl (fun s x => s + cell x.1 r c) (cell acc r c) := by
  induction results generalizing acc with
  | nil => exact ⟨acc, rfl, rfl, by simp⟩
  | cons x l ih =>
    obtain ⟨o1, h1, h2, h3⟩ := addInto_spec acc x.1 (h x (by simp))
    obtain ⟨out, h4, h5, h6⟩ := ih o1 (by
      intro r hr; rw [h2]; exact h r (List.mem_cons_of_mem _ hr))
    refine ⟨out, by simp [List.foldlM_cons, h1, h4], by omega, ?_⟩
    intro r c
    rw [h6, List.foldl_cons, h3]

theorem foldl_max_deg {α : Type} (l : List (α × Int)) (a : Int) :
    a ≤ l.foldl (fun d r => max d r.2) a ∧ (∀ r ∈ l, r.2 ≤ l.foldl (fun d r => max d r.2) a) ∧
      (l.foldl (fun d r => max d r.2) a = a ∨ ∃ r ∈ l, r.2 = l.foldl (fun d r => max d r.2) a) := by
  induction l generalizing a with
  | nil => simp
  | cons x l ih =>
    obtain ⟨h1, h2, h3⟩ := ih (max a x.2)
    simp only [List.foldl_cons]
    refine ⟨le_trans (le_max_left _ _) h1, ?_, ?_⟩
    · intro r hr
      rcases List.mem_cons.mp hr with rfl | hr
      · exact le_trans (le_max_right _ _) h1
      · exact h2 r hr
    · rcases h3 with h3 | ⟨r, hr, h3⟩
      · rcases max_choice a x.2 with hm | hm
        · left; rw [h3, hm]
        · right; exact ⟨x, by simp, by rw [h3, hm]⟩
      · right; exact ⟨r, List.mem_cons_of_mem _ hr, h3⟩

theorem mapM_single (items : List (Member T V)) (hc : ∀ i ∈ items, Coherent i) (t : T) :
    ∃ results, items.mapM (fun i => i.single t) = some results ∧
      List.Forall₂ (fun i r => i.single t = some r ∧ 0 ≤ r.2 ∧ (r.1.length : Int) = coeffSize r.2)
        items results := by
  induction items with
  | nil => exact ⟨[], rfl, List.Forall₂.nil⟩
  | cons i l ih =>
    obtain ⟨rs, h1, h2⟩ := ih (fun x hx => hc x (List.mem_cons_of_mem _ hx))
    obtain ⟨tab, d, h3, h4, h5⟩ := (hc i (by simp)).single_ok t
    exact ⟨(tab, d) :: rs, by simp [List.mapM_cons, h3, h1], List.Forall₂.cons ⟨h3, h4, h5⟩ h2⟩

theorem forall₂_right {α β : Type} {R : α → β → Prop} {P : β → Prop} {l : List α} {l' : List β}
    (h : List.Forall₂ R l l') (hP : ∀ a b, R a b → P b) : ∀ b ∈ l', P b := by
  induction h with
  | nil => simp
  | cons h1 _ ih =>
    intro b hb
    rcases List.mem_cons.mp hb with rfl | hb
    · exact hP _ _ h1
    · exact ih b hb

theorem combinedSingle_spec (items : List (Member T V)) (hc : ∀ i ∈ items, Coherent i) (t : T) :
    ∃ results tab d, combinedSingle items t = some (tab, d) ∧ 0 ≤ d ∧
      (tab.length : Int) = coeffSize d ∧
      List.Forall₂ (fun i r => i.single t = some r) items results ∧
      (∀ r ∈ results, r.2 ≤ d) ∧ (d = 0 ∨ ∃ r ∈ results, r.2 = d) ∧
      ∀ r c, cell tab r c = results.foldl (fun s x => s + cell x.1 r c) 0 := by
  obtain ⟨results, h1, h2⟩ := mapM_single items hc t
  obtain ⟨hd1, hd2, hd3⟩ := foldl_max_deg results 0
  set D := results.foldl (fun d r => max d r.2) 0 with hD
  have hpos := coeffSize_pos D hd1
  have hsz : ∀ r ∈ results, 0 ≤ r.2 ∧ (r.1.length : Int) = coeffSize r.2 :=
    forall₂_right h2 (fun a b h => h.2)
  obtain ⟨out, h3, h4, h5⟩ := foldlM_addInto results (zeros V D) (by
    intro r hr
    have := hsz r hr
    have := coeffSize_mono r.2 D this.1 (hd2 r hr)
    rw [zeros_length]; omega)
  refine ⟨results, out, D, ?_, hd1, ?_, h2.imp (fun _ _ h => h.1), hd2, hd3, ?_⟩
  · unfold combinedSingle
    simp only [h1, Option.bind_eq_bind, Option.bind_some, ← hD, h3, Option.pure_def]
  · rw [h4, zeros_length]; omega
  · intro r c
    rw [h5, cell_zeros]

theorem mapM_addInto (size : Nat) (acc items : List (Tab V)) (hl : items.length = acc.length)
    (ha : ∀ a ∈ acc, a.length = size) (hi : ∀ a ∈ items, a.length ≤ size) :
    ∃ out, ∃ ho : out.length = acc.length,
      (List.zip acc items).mapM (fun p => addInto p.1 p.2) = some out ∧
      ∀ p (hp : p < acc.length), (out[p]).length = size ∧
        ∀ r c, cell (out[p]) r c = cell (acc[p]) r c + cell (items[p]) r c := by
  induction acc generalizing items with
  | nil => exact ⟨[], rfl, by simp, by simp⟩
  | cons a acc ih =>
    obtain ⟨it, items, rfl⟩ : ∃ x l, items = x :: l := by
      cases items with
      | nil => simp at hl
      | cons x l => exact ⟨x, l, rfl⟩
    obtain ⟨out, ho, h1, h2⟩ := ih items (by simpa using hl)
      (fun x hx => ha x (List.mem_cons_of_mem _ hx)) (fun x hx => hi x (List.mem_cons_of_mem _ hx))
    obtain ⟨o, h3, h4, h5⟩ := addInto_spec a it (by
      rw [ha a (by simp)]; exact hi it (by simp))
    refine ⟨o :: out, by simp [ho], by simp [List.mapM_cons, h3, h1], ?_⟩
    intro p hp
    cases p with
    | zero => exact ⟨by simp only [List.getElem_cons_zero]; rw [h4]; exact ha a (by simp), h5⟩
    | succ p => simpa using h2 p (by simpa using hp)

theorem foldlM_multi (size n : Nat) (results : List (List (Tab V) × Int)) (acc : List (Tab V))
    (hacc : acc.length = n) (ha : ∀ a ∈ acc, a.length = size)
    (hr : ∀ r ∈ results, r.1.length = n ∧ ∀ a ∈ r.1, a.length ≤ size) :
    ∃ out, ∃ ho : out.length = n,
      results.foldlM (fun acc r => if r.1.length = acc.length then
        (List.zip acc r.1).mapM (fun p => addInto p.1 p.2) else none) acc = some out ∧
      ∀ p (hp : p < n), (out[p]).length = size ∧
        ∀ r c, cell (out[p]) r c =
          results.foldl (fun s x => s + cell (x.1.getD p []) r c) (cell (acc[p]) r c) := by
  induction results generalizing acc with
  | nil =>
    exact ⟨acc, hacc, rfl, fun p hp => ⟨ha _ (List.getElem_mem _), by simp⟩⟩
  | cons x l ih =>
    obtain ⟨hx1, hx2⟩ := hr x (by simp)
    obtain ⟨o1, ho1, h1, h2⟩ := mapM_addInto size acc x.1 (by omega) ha hx2
    obtain ⟨out, ho, h3, h4⟩ := ih o1 (by omega) (by
        intro a hin
        obtain ⟨p, hp, rfl⟩ := List.getElem_of_mem hin
        exact (h2 p (by omega)).1)
      (fun r hr' => hr r (List.mem_cons_of_mem _ hr'))
    refine ⟨out, ho, ?_, ?_⟩
    · rw [List.foldlM_cons, if_pos (by omega), h1]
      exact h3
    · intro p hp
      refine ⟨(h4 p hp).1, ?_⟩
      intro r c
      rw [(h4 p hp).2 r c, List.foldl_cons, (h2 p (by omega)).2 r c]
      congr 2
      rw [List.getD_eq_getElem?_getD, List.getElem?_eq_getElem (by omega)]
      rfl

theorem mapM_multi (items : List (Member T V)) (hc : ∀ i ∈ items, Coherent i) (ts : List T) :
    ∃ results, items.mapM (fun i => i.multi ts) = some results ∧
      List.Forall₂ (fun i r => 0 ≤ r.2 ∧ List.Forall₂ (fun t tab => (tab.length : Int) = coeffSize r.2 ∧
        ∃ tab1 d1, i.single t = some (tab1, d1) ∧ SameCells tab tab1) ts r.1)
        items results := by
  induction items with
  | nil => exact ⟨[], rfl, List.Forall₂.nil⟩
  | cons i l ih =>
    obtain ⟨rs, h1, h2⟩ := ih (fun x hx => hc x (List.mem_cons_of_mem _ hx))
    obtain ⟨tab, d, h3, h4, h5⟩ := (hc i (by simp)).multi_ok ts
    exact ⟨(tab, d) :: rs, by simp [List.mapM_cons, h3, h1], List.Forall₂.cons ⟨h4, h5⟩ h2⟩

theorem combinedMulti_spec (items : List (Member T V)) (hc : ∀ i ∈ items, Coherent i)
    (ts : List T) :
    ∃ tabs d, combinedMulti items ts = some (tabs, d) ∧ 0 ≤ d ∧
      List.Forall₂ (fun t tab => (tab.length : Int) = coeffSize d ∧
        ∃ tab1 d1, combinedSingle items t = some (tab1, d1) ∧ SameCells tab tab1) ts tabs := by
  obtain ⟨results, h1, h2⟩ := mapM_multi items hc ts
  obtain ⟨hd1, hd2, -⟩ := foldl_max_deg results 0
  set D := results.foldl (fun d r => max d r.2) 0 with hD
  have hpos := coeffSize_pos D hd1
  have hsz : ∀ r ∈ results, r.1.length = ts.length ∧ ∀ a ∈ r.1, a.length ≤ (coeffSize D).toNat := by
    intro r hr
    have h3 : 0 ≤ r.2 ∧ r.1.length = ts.length ∧ ∀ a ∈ r.1, (a.length : Int) = coeffSize r.2 := by
      refine forall₂_right (P := fun r => 0 ≤ r.2 ∧ r.1.length = ts.length ∧
        ∀ a ∈ r.1, (a.length : Int) = coeffSize r.2) h2 ?_ r hr
      intro i r h
      exact ⟨h.1, h.2.length_eq.symm, forall₂_right h.2 (fun _ _ h => h.1)⟩
    refine ⟨h3.2.1, ?_⟩
    intro a ha
    have := h3.2.2 a ha
    have := coeffSize_mono r.2 D h3.1 (hd2 r hr)
    omega
  obtain ⟨out, ho, h3, h4⟩ := foldlM_multi (coeffSize D).toNat ts.length results
    (List.replicate ts.length (zeros V D)) (by simp)
    (by intro a ha; rw [List.eq_of_mem_replicate ha, zeros_length]) hsz
  refine ⟨out, D, ?_, hd1, ?_⟩
  · unfold combinedMulti
    simp only [h1, Option.bind_eq_bind, Option.bind_some, ← hD, h3, Option.pure_def]
  · rw [List.forall₂_iff_get]
    refine ⟨ho.symm, ?_⟩
    intro p hp hp'
    simp only [List.get_eq_getElem]
    obtain ⟨g1, g2⟩ := h4 p hp
    refine ⟨by rw [g1]; omega, ?_⟩
    obtain ⟨rs, tab, d, k1, -, -, k2, -, -, k3⟩ := combinedSingle_spec items hc ts[p]
    refine ⟨tab, d, k1, ?_⟩
    intro r c
    rw [g2, k3]
    simp only [List.getElem_replicate, cell_zeros]
    clear g1 g2 k1 k3 h1 h3 h4 hsz hd2
    generalize (0 : V) = z
    clear hD hd1 hpos hp' ho D out
    induction h2 generalizing rs z with
    | nil => cases k2; rfl
    | @cons i x l l' ha _ ih =>
      cases k2 with
      | @cons _ y _ ys hb hrest =>
        simp only [List.foldl_cons]
        have hsame : cell (x.1.getD p []) r c = cell y.1 r c := by
          have hlen := ha.2.length_eq
          obtain ⟨-, tab1, d1, e1, e2⟩ := (List.forall₂_iff_get.mp ha.2).2 p hp (by omega)
          simp only [List.get_eq_getElem] at e1 e2
          rw [hb] at e1
          simp only [Option.some.injEq] at e1
          rw [List.getD_eq_getElem?_getD, List.getElem?_eq_getElem (by omega), Option.getD_some, e2 r c, e1]
        rw [hsame]
        exact ih (fun i hi => hc i (List.mem_cons_of_mem _ hi)) ys hrest _

end combined

end Verif.Coeffs
