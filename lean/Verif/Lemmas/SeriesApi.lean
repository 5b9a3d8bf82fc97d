/-
Lemmas on the array functions filling rows.
-/
import Verif.Model.SeriesApi
import Verif.Lemmas.ArrayApi
import Verif.Lemmas.NdArray

set_option linter.unusedSectionVars false

namespace Verif.Arr

open Verif.Buf Verif.Spec

variable {A : Type}

theorem wrI_length {b b' : List A} {i : Int} {v : A} (h : wrI b i v = some b') : b'.length = b.length := by
  unfold wrI wr at h
  split at h
  · split at h
    · rw [← Option.some.inj h, List.length_set]
    · simp at h
  · simp at h

theorem wrList_length : ∀ {vs b b' : List A} {p : Int}, wrList b p vs = some b' → b'.length = b.length
  | [], b, b', p, h => by rw [← Option.some.inj h]
  | v :: vs, b, b', p, h => by
    rw [wrList] at h
    simp only [Option.bind_eq_bind, Option.bind_eq_some_iff] at h
    obtain ⟨c, h1, h2⟩ := h
    rw [wrList_length h2, wrI_length h1]

theorem foldlM_congr_inv {α S : Type} (Inv : S → Prop) {f g : S → α → Option S} : ∀ {l : List α},
    (∀ a ∈ l, ∀ s, Inv s → f s a = g s a) → (∀ a ∈ l, ∀ s s', Inv s → g s a = some s' → Inv s') →
    ∀ s, Inv s → l.foldlM f s = l.foldlM g s
  | [], _, _, _, _ => rfl
  | a :: l, h1, h2, s, hs => by
    rw [List.foldlM_cons, List.foldlM_cons, h1 a (by simp) s hs]
    cases hg : g s a with
    | none => rfl
    | some s' =>
      simp only [Option.bind_eq_bind, Option.bind_some]
      exact foldlM_congr_inv Inv (fun a ha => h1 a (by simp [ha])) (fun a ha => h2 a (by simp [ha])) s'
        (h2 a (by simp) s s' hs hg)

theorem readN_list {b : List A} {k w : Nat} (h : k + w ≤ b.length) :
    ∃ o, readN (rdI b) (k : Int) w = some o ∧ o.length = w := by
  obtain ⟨r, hr⟩ := mapM_isSome (l := List.range w) (f := fun i : Nat => rdI b ((k : Int) + i)) (by
    intro i hi
    have hi := List.mem_range.mp hi
    refine ⟨b[k + i]'(by omega), ?_⟩
    unfold rdI rd
    rw [if_pos (by omega), show ((k : Int) + i).toNat = k + i by omega, List.getElem?_eq_getElem])
  exact ⟨r, hr, by rw [mapM_length hr, List.length_range]⟩

/-- Sequential results with one output, see `walk_mapM`. -/
theorem fold_mapM {lead : List Nat} (w : Nat) (f : List Nat → Option (List A)) (ad : List Nat → Int)
    (hw : ∀ idx v, f idx = some v → v.length = w)
    (had : (indices lead).map ad =
      (List.range (indices lead).length).map (fun k : Nat => ((0 + k * w : Nat) : Int)))
    (buf : List A) (hb : buf.length = lead.prod * w) :
    (indices lead).foldlM (fun buf idx => (f idx).bind (fun v => wrList buf (ad idx) v)) buf =
      ((indices lead).mapM f).map List.flatten := by
  rw [fold_unit,
    show ((), buf) = ((), [] ++ buf) from rfl,
    fold_write w (fun idx (s : Unit) => (f idx).map (fun v => ((), v))) ad
      (indices lead) () [] buf ?_ (by rw [indices_length, hb]) (by simpa using had)]
  · have e := fold_collect (fun (_ : Unit) idx => (f idx).map (fun c => ((), c))) some id (indices lead) ()
      ([] : List A)
    rw [collect_mapM f some] at e
    simp only [List.map_id, List.nil_append, Option.bind_fun_some, id] at e
    rw [← e]
    congr 2
    funext x a
    cases f a <;> rfl
  · intro idx _ s s' vs hvs
    simp only [Option.map_eq_some_iff] at hvs
    obtain ⟨d, hd, hvs⟩ := hvs
    obtain ⟨-, rfl⟩ := Prod.mk.inj hvs
    exact hw _ _ hd

theorem mapM_some_map {α β : Type} (f : α → β) : ∀ l : List α, l.mapM (fun a => some (f a)) = some (l.map f)
  | [] => rfl
  | a :: l => by rw [List.mapM_cons, mapM_some_map f l]; rfl

/-- Address and size of a leaf of a new array. -/
theorem leaf_new {lead : List Nat} (core : List Nat) {idx : List Nat} (h : idx ∈ indices lead) :
    ∃ k : Nat, k < lead.prod ∧ (sub (contiguous (lead ++ core)) idx).data = ((k * core.prod : Nat) : Int) ∧
      (sub (contiguous (lead ++ core)) idx).dim = core := by
  have e := addr_new lead core
  have hm : (sub (contiguous (lead ++ core)) idx).data ∈
      (indices lead).map (fun idx => (sub (contiguous (lead ++ core)) idx).data) :=
    List.mem_map.mpr ⟨idx, h, rfl⟩
  rw [e] at hm
  obtain ⟨k, hk, he⟩ := List.mem_map.mp hm
  refine ⟨k, by rw [← indices_length]; exact List.mem_range.mp hk, by rw [← he]; simp, ?_⟩
  have := (indices_valid h).length_eq
  simp only [sub, contiguous, this, List.drop_left]

theorem leaf_bound {k n w l : Nat} (hk : k < n) (hl : l = n * w) : k * w + w ≤ l := by
  have : (k + 1) * w ≤ n * w := Nat.mul_le_mul_right _ hk
  rw [hl]
  nlinarith

section
variable {K : Type} [Field K]

/-- The content of an array filled row by row. -/
theorem fillRec_eq {fill : K → List K → Option (List K)} {mem : Int → Option K} {lead core : List Nat}
    {x : ArrD} (hx : Fits lead none x) (X : List Nat → K)
    (hr : ∀ idx ∈ indices lead, mem (sub x idx).data = some (X idx)) (F : K → List K)
    (hf : ∀ v b, b.length = core.prod → fill v b = some (F v)) (hF : ∀ v, (F v).length = core.prod)
    (buf : List K) (hb : buf.length = (lead ++ core).prod) :
    fillRec fill mem lead [x, contiguous (lead ++ core)] buf =
      some ((indices lead).map (fun idx => F (X idx))).flatten := by
  have hb' : buf.length = lead.prod * core.prod := by rw [hb, List.prod_append]
  have h := walk_eq [none, none] (fun arrs buf => match arrs with
    | [x, out] => do
      let v ← mem x.data
      let old ← readLeaf buf out
      let new ← fill v old
      wrList buf out.data new
    | _ => none) [] lead [x, contiguous (lead ++ core)] buf
    (.cons hx (.cons (fits_new lead core) .nil))
  rw [List.append_nil] at h
  refine h.trans ?_
  rw [foldlM_congr_inv (fun b : List K => b.length = lead.prod * core.prod)
    (g := fun b idx => (some (F (X idx))).bind (fun v =>
      wrList b (sub (contiguous (lead ++ core)) idx).data v)) ?_ ?_ buf hb']
  · rw [fold_mapM core.prod (fun idx => some (F (X idx)))
      (fun idx => (sub (contiguous (lead ++ core)) idx).data)
      (by intro idx v h; rw [← Option.some.inj h]; exact hF _) (addr_new lead core) buf hb', mapM_some_map]
    rfl
  · intro idx hi s hs
    obtain ⟨k, hk, e1, e2⟩ := leaf_new core hi
    obtain ⟨o, ho, hl⟩ := readN_list (b := s) (leaf_bound hk hs)
    simp only [List.zipWith_cons_cons, List.zipWith_nil_left, at', hr idx hi, readLeaf, e1, e2, ho,
      Option.bind_eq_bind, Option.bind_some, hf _ _ hl]
  · intro idx hi s s' hs h
    simp only [Option.bind_some] at h
    rw [wrList_length h, hs]

theorem fold_pair {α S T : Type} (f : S → α → Option S) (g : T → α → Option T) : ∀ (l : List α) (s s' : S) (t t' : T),
    l.foldlM f s = some s' → l.foldlM g t = some t' →
    l.foldlM (fun (x : S × T) a => (f x.1 a).bind (fun b => (g x.2 a).bind (fun c => some (b, c)))) (s, t) =
      some (s', t')
  | [], s, s', t, t', h1, h2 => by
    rw [← Option.some.inj h1, ← Option.some.inj h2]
    rfl
  | a :: l, s, s', t, t', h1, h2 => by
    rw [List.foldlM_cons] at h1 h2 ⊢
    simp only [Option.bind_eq_bind, Option.bind_eq_some_iff] at h1 h2
    obtain ⟨u, hu, h1⟩ := h1
    obtain ⟨v, hv, h2⟩ := h2
    simp only [hu, hv, Option.bind_eq_bind, Option.bind_some]
    exact fold_pair f g l u s' v t' h1 h2

/-- The contents of two arrays filled row by row. -/
theorem legendreRec_eq (L : Geo.Libm K) (small : K → Bool) (scale : K) (degree : Nat) {mem : Int → Option K}
    {lead : List Nat} {w : Nat} {x : ArrD} (hx : Fits lead none x) (X : List Nat → K)
    (hr : ∀ idx ∈ indices lead, mem (sub x idx).data = some (X idx)) (F G : K → List K)
    (hf : ∀ v op od, op.length = w → od.length = w →
      Legendre.legendre L.sin L.sqrt small scale ⟨op, od⟩ degree (v * Geo.dg2rad L) = some ⟨F v, G v⟩)
    (hF : ∀ v, (F v).length = w ∧ (G v).length = w)
    (bp bd : List K) (hp : bp.length = (lead ++ [w]).prod) (hd : bd.length = (lead ++ [w]).prod) :
    legendreRec L small scale degree mem lead [x, contiguous (lead ++ [w]), contiguous (lead ++ [w])] (bp, bd) =
      some (((indices lead).map (fun idx => F (X idx))).flatten,
        ((indices lead).map (fun idx => G (X idx))).flatten) := by
  have hp' : bp.length = lead.prod * w := by rw [hp]; simp
  have hd' : bd.length = lead.prod * w := by rw [hd]; simp
  have h := walk_eq [none, none, none] (fun arrs (s : List K × List K) => match arrs with
    | [lat, p, dp] => do
      let v ← mem lat.data
      let op ← readLeaf s.1 p
      let od ← readLeaf s.2 dp
      let o ← Legendre.legendre L.sin L.sqrt small scale ⟨op, od⟩ degree (v * Geo.dg2rad L)
      let bp ← wrList s.1 p.data o.lp
      let bd ← wrList s.2 dp.data o.ldp
      return (bp, bd)
    | _ => none) [] lead [x, contiguous (lead ++ [w]), contiguous (lead ++ [w])] (bp, bd)
    (.cons hx (.cons (fits_new lead [w]) (.cons (fits_new lead [w]) .nil)))
  rw [List.append_nil] at h
  refine h.trans ?_
  have had := addr_new lead [w]
  rw [List.prod_singleton] at had
  rw [foldlM_congr_inv (fun s : List K × List K => s.1.length = lead.prod * w ∧ s.2.length = lead.prod * w)
    (g := fun s idx =>
      (wrList s.1 (sub (contiguous (lead ++ [w])) idx).data (F (X idx))).bind (fun b =>
      (wrList s.2 (sub (contiguous (lead ++ [w])) idx).data (G (X idx))).bind (fun c => some (b, c))))
    ?_ ?_ (bp, bd) ⟨hp', hd'⟩]
  · refine fold_pair (fun s idx => wrList s (sub (contiguous (lead ++ [w])) idx).data (F (X idx)))
      (fun s idx => wrList s (sub (contiguous (lead ++ [w])) idx).data (G (X idx))) _ _ _ _ _ ?_ ?_
    · have := fold_mapM w (fun idx => some (F (X idx)))
        (fun idx => (sub (contiguous (lead ++ [w])) idx).data)
        (by intro idx v h; rw [← Option.some.inj h]; exact (hF _).1) had bp hp'
      rw [mapM_some_map] at this
      exact this
    · have := fold_mapM w (fun idx => some (G (X idx)))
        (fun idx => (sub (contiguous (lead ++ [w])) idx).data)
        (by intro idx v h; rw [← Option.some.inj h]; exact (hF _).2) had bd hd'
      rw [mapM_some_map] at this
      exact this
  · intro idx hi s hs
    obtain ⟨k, hk, e1, e2⟩ := leaf_new [w] hi
    rw [List.prod_singleton] at e1
    obtain ⟨o, ho, hl⟩ := readN_list (b := s.1) (leaf_bound hk hs.1)
    obtain ⟨o', ho', hl'⟩ := readN_list (b := s.2) (leaf_bound hk hs.2)
    simp only [List.zipWith_cons_cons, List.zipWith_nil_left, at', hr idx hi, readLeaf, e1, e2,
      List.prod_singleton, ho, ho', Option.bind_eq_bind, Option.bind_some, hf _ _ _ hl hl']
    rfl
  · intro idx hi s s' hs h
    simp only [Option.bind_eq_some_iff] at h
    obtain ⟨b, h1, c, h2, h3⟩ := h
    rw [← Option.some.inj h3]
    exact ⟨by rw [wrList_length h1, hs.1], by rw [wrList_length h2, hs.2]⟩

end

end Verif.Arr
