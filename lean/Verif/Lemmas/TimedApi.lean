/-
Lemmas on the evaluation of time dependent models on arrays.
-/
import Verif.Model.TimedApi
import Verif.Lemmas.ArrayApi

set_option linter.unusedSectionVars false

namespace Verif.Arr

open Verif.Buf Verif.Geo Verif.FullEval

theorem at_nil (g : Option Nat) (a : ArrD) : at' g a [] = a := by
  cases g <;> simp [at', sub_nil]

/-- Item of an item. -/
theorem fits_append {rest : List Nat} {g : Option Nat} : ∀ {dt a : List Nat} {x : ArrD},
    a.length = dt.length → Fits (dt ++ rest) g x →
      Fits rest g (at' g x a) ∧ ∀ b, at' g (at' g x a) b = at' g x (a ++ b)
  | [], [], x, _, h => by rw [at_nil]; exact ⟨h, fun _ => rfl⟩
  | n :: dt, i :: a, x, hl, h => by
    obtain ⟨x', -, h', e⟩ := item_fits (n := n) (lead := dt ++ rest) h i
    obtain ⟨f1, f2⟩ := fits_append (dt := dt) (a := a) (by simpa using hl) h'
    rw [e a]
    exact ⟨f1, fun b => by rw [f2 b, List.cons_append, e]⟩
  | [], _ :: _, _, hl, _ => by simp at hl
  | _ :: _, [], _, hl, _ => by simp at hl

theorem indices_app (rest : List Nat) : ∀ dt : List Nat,
    indices (dt ++ rest) = (indices dt).flatMap (fun a => (indices rest).map (fun b => a ++ b))
  | [] => by simp [indices]
  | n :: dt => by
    rw [List.cons_append, indices, indices, indices_app rest dt, List.flatMap_assoc]
    congr 1
    funext i
    rw [List.map_flatMap, List.flatMap_map]
    congr 1
    funext a
    rw [List.map_map]
    rfl

/-- A loop whose passes end with loops over the remaining dimensions. -/
theorem nested_fold {C S α : Type} (Inv : C → Prop) (f : C × S → α → Option (C × S))
    (m : α → List (List Nat)) (L : List Nat → S → Option S) : ∀ (l : List α) (c : C) (s : S), Inv c →
    (∀ a ∈ l, ∀ c s, Inv c → ∃ c', Inv c' ∧
      f (c, s) a = ((m a).foldlM (fun s b => L b s) s).map (fun s' => (c', s'))) →
    (l.foldlM f (c, s)).map Prod.snd = (l.flatMap m).foldlM (fun s b => L b s) s
  | [], c, s, _, _ => rfl
  | a :: l, c, s, hc, h => by
    obtain ⟨c', hc', e⟩ := h a (by simp) c s hc
    rw [List.foldlM_cons, e, List.flatMap_cons, List.foldlM_append]
    cases (m a).foldlM (fun s b => L b s) s with
    | none => rfl
    | some s' =>
      simp only [Option.map_some, Option.bind_eq_bind, Option.bind_some]
      exact nested_fold Inv f m L l c' s' hc' (fun a ha => h a (by simp [ha]))

variable {K : Type}

theorem tabMem_pair (rows : List (K × K)) (k : Nat) (r : K × K) (h : rows[k]? = some r) :
    tabMem rows (2 * (k : Int)) = some r.1 ∧ tabMem rows (2 * (k : Int) + 1) = some r.2 := by
  have e1 : (2 * (k : Int)).toNat = 2 * k := by omega
  have e2 : (2 * (k : Int) + 1).toNat = 2 * k + 1 := by omega
  unfold tabMem
  rw [if_neg (by omega), if_neg (by omega), e1, e2, show 2 * k / 2 = k by omega,
    show (2 * k + 1) / 2 = k by omega, show 2 * k % 2 = 0 by omega, show (2 * k + 1) % 2 = 1 by omega, h]
  exact ⟨rfl, rfl⟩

section
variable [Field K]

theorem readCoef_tab (rows : List (K × K)) : readCoef (tabMem rows) (tabArr rows.length) = some rows := by
  show readPairs (tabMem rows) 0 rows.length = some rows
  unfold readPairs
  have h : ∀ k ∈ List.range rows.length, (do
      return (← tabMem rows (0 + 2 * (k : Int)), ← tabMem rows (0 + 2 * (k : Int) + 1)) : Option (K × K)) =
      some (rows.getD k (0, 0)) := by
    intro k hk
    have hk := List.mem_range.mp hk
    obtain ⟨h1, h2⟩ := tabMem_pair rows k _ (List.getElem?_eq_getElem hk)
    rw [zero_add, h1, h2, List.getD_eq_getElem?_getD, List.getElem?_eq_getElem hk]
    rfl
  have h2 : ∀ l : List Nat, (∀ k ∈ l, k < rows.length) →
      l.mapM (fun k : Nat => (do
        return (← tabMem rows (0 + 2 * (k : Int)), ← tabMem rows (0 + 2 * (k : Int) + 1)) : Option (K × K))) =
      some (l.map (fun k => rows.getD k (0, 0))) := by
    intro l
    induction l with
    | nil => intro _; rfl
    | cons k l ih =>
      intro hl
      rw [List.mapM_cons, h k (List.mem_range.mpr (hl k (by simp))), ih (fun k hk => hl k (by simp [hk]))]
      rfl
  rw [h2 _ (fun k hk => List.mem_range.mp hk)]
  congr 1
  apply List.ext_getElem?
  intro k
  by_cases hk : k < rows.length
  · rw [List.getElem?_map, List.getElem?_range hk, List.getElem?_eq_getElem hk]
    simp [List.getD_eq_getElem?_getD, hk]
  · rw [List.getElem?_eq_none (by simpa using hk), List.getElem?_eq_none (by omega)]

theorem fits_tab (rest : List Nat) (n : Nat) : Fits rest (some 2) (tabArr n) :=
  ⟨rfl, .inl ⟨[], [n, 2], rfl, rfl, List.nil_prefix⟩⟩

theorem at_tab (n : Nat) (b : List Nat) : at' (some 2) (tabArr n) b = tabArr n := by
  show sub (tabArr n) (b.take 0) = _
  rw [List.take_zero, sub_nil]

theorem fits_zero {dt rest core : List Nat} : Fits dt (some 0) (contiguous (dt ++ rest ++ core)) :=
  ⟨by simp [contiguous, cstrides_length], .inr ⟨by simp [contiguous], by simp [contiguous]⟩⟩

theorem at_zero {dt rest core a : List Nat} (h : a.length = dt.length) :
    at' (some 0) (contiguous (dt ++ rest ++ core)) a = at' none (contiguous (dt ++ rest ++ core)) a := by
  show sub _ _ = sub _ _
  rw [List.take_of_length_le]
  simp only [contiguous, List.length_append]
  omega

theorem at_none_dim {dt rest core a : List Nat} (h : a.length = dt.length) :
    (at' none (contiguous (dt ++ rest ++ core)) a).dim = rest ++ core := by
  show (contiguous (dt ++ rest ++ core)).dim.drop a.length = _
  rw [h]
  simp [contiguous]

variable {C St : Type} {upd : C → List K → Option (C × List (K × K))} (ev : Eval St K)
  {xm cm : Int → Option K} {x coef : ArrD} {dt rest : List Nat} {ts : List (NdArray K)}
  {Inv : C → Prop} {T : List Nat → List K} {R : List Nat → List (K × K)}
  (hT : List.Forall₂ (Fits dt) (ts.map (fun _ => some 0)) (ts.map NdArray.arr))
  (hr : ∀ a ∈ indices dt,
    ((List.zipWith (fun g a' => at' g a' a) (ts.map (fun _ => some 0)) (ts.map NdArray.arr)).zip
      (ts.map NdArray.mem)).mapM (fun p => p.2 p.1.data) = some (T a))
  (hu : ∀ a ∈ indices dt, ∀ c, Inv c → ∃ c', Inv c' ∧ upd c (T a) = some (c', R a))
  (hx : Fits (dt ++ rest) (some 1) x) (hc : Fits (dt ++ rest) (some 2) coef)
  (h2 : ∀ idx ∈ indices (dt ++ rest), readCoef cm (at' (some 2) coef idx) = some (R (idx.take dt.length)))

theorem fits_prefix {dt rest : List Nat} {g : Nat} {x : ArrD} (h : Fits (dt ++ rest) (some g) x) :
    Fits dt (some g) x := by
  obtain ⟨h1, ⟨p, c, e, l, q⟩ | ⟨q, l⟩⟩ := h
  · refine ⟨h1, ?_⟩
    by_cases hl : p.length ≤ dt.length
    · exact .inl ⟨p, c, e, l, List.prefix_of_prefix_length_le q (List.prefix_append _ _) hl⟩
    · right
      have hq : dt <+: p := List.prefix_of_prefix_length_le (List.prefix_append _ _) q (by omega)
      rw [e]
      exact ⟨hq.trans (List.prefix_append _ _), by simp; omega⟩
  · exact ⟨h1, .inr ⟨(List.prefix_append _ _).trans q, by simp at l; omega⟩⟩

include hT hr hu hx hc h2

theorem timedPot_eq (c0 : C) (h0 : Inv c0) (s : St × List K) :
    (timedPot upd ev xm (ts.map NdArray.mem) dt (contiguous (dt ++ rest) :: x :: ts.map NdArray.arr)
      (c0, s)).map Prod.snd =
      shevalPot ev xm cm (dt ++ rest) [contiguous (dt ++ rest), x, coef] s := by
  have hp := fits_zero (dt := dt) (rest := rest) (core := [])
  rw [List.append_nil] at hp
  have w := walk_eq (S := C × St × List K) (some 0 :: some 1 :: ts.map (fun _ => some 0))
    (fun arrs s => match arrs with
    | pot :: x :: tas => do
      let times ← (tas.zip (ts.map NdArray.mem)).mapM (fun p => p.2 p.1.data)
      let c ← upd s.1 times
      let r ← shevalPot ev xm (tabMem c.2) pot.dim [pot, x, tabArr c.2.length] s.2
      return (c.1, r)
    | _ => none) [] dt (contiguous (dt ++ rest) :: x :: ts.map NdArray.arr) (c0, s)
    (.cons hp (.cons (fits_prefix hx) hT))
  have w2 := walk_eq (S := St × List K) [none, some 1, some 2] (fun arrs s => match arrs with
    | [pot, x, coef] => do
      let v ← readPoint xm x
      let rows ← readCoef cm coef
      let r ← ev s.1 v rows
      let p ← r.2.1
      let buf ← wrList s.2 pot.data [p]
      return (r.1, buf)
    | _ => none) [] (dt ++ rest) [contiguous (dt ++ rest), x, coef] s
    (.cons (fits_new_nil _) (.cons hx (.cons hc .nil)))
  rw [List.append_nil] at w w2
  unfold timedPot shevalPot
  rw [List.map_map]
  refine (congrArg (Option.map Prod.snd) w).trans (Eq.trans ?_ w2.symm)
  rw [indices_app]
  refine nested_fold Inv _ _ (fun idx s => _) _ c0 s h0 ?_
  intro a ha c s hc'
  obtain ⟨c', hi, e⟩ := hu a ha c hc'
  have hal : a.length = dt.length := (indices_valid ha).length_eq
  refine ⟨c', hi, ?_⟩
  have hz := at_zero (dt := dt) (rest := rest) (core := []) hal
  have hd := at_none_dim (dt := dt) (rest := rest) (core := []) hal
  simp only [List.append_nil] at hz hd
  simp only [List.zipWith_cons_cons, hr a ha, e, hz, hd, Option.bind_eq_bind, Option.bind_some]
  obtain ⟨p1, p2⟩ := fits_append hal (fits_new_nil (dt ++ rest))
  obtain ⟨x1, x2⟩ := fits_append hal hx
  have w3 := walk_eq (S := St × List K) [none, some 1, some 2] (fun arrs s => match arrs with
    | [pot, x, coef] => do
      let v ← readPoint xm x
      let rows ← readCoef (tabMem (R a)) coef
      let r ← ev s.1 v rows
      let p ← r.2.1
      let buf ← wrList s.2 pot.data [p]
      return (r.1, buf)
    | _ => none) [] rest [at' none (contiguous (dt ++ rest)) a, at' (some 1) x a, tabArr (R a).length] s
    (.cons p1 (.cons x1 (.cons (fits_tab _ _) .nil)))
  rw [List.append_nil] at w3
  unfold shevalPot
  refine Eq.trans (congrArg (fun (o : Option (St × List K)) => o.bind (fun r => some (c', r))) w3) ?_
  rw [List.foldlM_map, Option.map_eq_bind]
  refine congrArg (fun (o : Option (St × List K)) => o.bind (fun r => some (c', r))) ?_
  refine foldlM_congr_mem (fun b hb s => ?_) s
  simp only [List.zipWith_cons_cons, List.zipWith_nil_left, p2, x2, at_tab, readCoef_tab,
    h2 (a ++ b) (by rw [indices_app]; exact List.mem_flatMap.mpr ⟨a, ha, List.mem_map.mpr ⟨b, hb, rfl⟩⟩),
    ← hal, List.take_left, Option.bind_eq_bind, Option.bind_some]

theorem timedGrd_eq (c0 : C) (h0 : Inv c0) (s : St × List K) :
    (timedGrd upd ev xm (ts.map NdArray.mem) dt (contiguous (dt ++ rest ++ [3]) :: x :: ts.map NdArray.arr)
      (c0, s)).map Prod.snd =
      shevalGrd ev xm cm (dt ++ rest ++ [3]) [contiguous (dt ++ rest ++ [3]), x, coef] s := by
  have hp := fits_zero (dt := dt) (rest := rest) (core := [3])
  have w := walk_eq (S := C × St × List K) (some 0 :: some 1 :: ts.map (fun _ => some 0))
    (fun arrs s => match arrs with
    | grd :: x :: tas => do
      let times ← (tas.zip (ts.map NdArray.mem)).mapM (fun p => p.2 p.1.data)
      let c ← upd s.1 times
      let r ← shevalGrd ev xm (tabMem c.2) grd.dim [grd, x, tabArr c.2.length] s.2
      return (c.1, r)
    | _ => none) [] dt (contiguous (dt ++ rest ++ [3]) :: x :: ts.map NdArray.arr) (c0, s)
    (.cons hp (.cons (fits_prefix hx) hT))
  have w2 := walk_eq (S := St × List K) [none, some 1, some 2] (fun arrs s => match arrs with
    | [grd, x, coef] => do
      let v ← readPoint xm x
      let rows ← readCoef cm coef
      let r ← ev s.1 v rows
      let g ← r.2.2
      let buf ← wrList s.2 grd.data [g.x, g.y, g.z]
      return (r.1, buf)
    | _ => none) [3] (dt ++ rest) [contiguous (dt ++ rest ++ [3]), x, coef] s
    (.cons (fits_new _ _) (.cons hx (.cons hc .nil)))
  rw [List.append_nil] at w
  unfold timedGrd shevalGrd
  rw [List.map_map]
  refine (congrArg (Option.map Prod.snd) w).trans (Eq.trans ?_ w2.symm)
  rw [indices_app]
  refine nested_fold Inv _ _ (fun idx s => _) _ c0 s h0 ?_
  intro a ha c s hc'
  obtain ⟨c', hi, e⟩ := hu a ha c hc'
  have hal : a.length = dt.length := (indices_valid ha).length_eq
  refine ⟨c', hi, ?_⟩
  have hz := at_zero (dt := dt) (rest := rest) (core := [3]) hal
  have hd := at_none_dim (dt := dt) (rest := rest) (core := [3]) hal
  simp only [List.zipWith_cons_cons, hr a ha, e, hz, hd, Option.bind_eq_bind, Option.bind_some]
  obtain ⟨p1, p2⟩ := fits_append hal (fits_new (dt ++ rest) [3])
  obtain ⟨x1, x2⟩ := fits_append hal hx
  have w3 := walk_eq (S := St × List K) [none, some 1, some 2] (fun arrs s => match arrs with
    | [grd, x, coef] => do
      let v ← readPoint xm x
      let rows ← readCoef (tabMem (R a)) coef
      let r ← ev s.1 v rows
      let g ← r.2.2
      let buf ← wrList s.2 grd.data [g.x, g.y, g.z]
      return (r.1, buf)
    | _ => none) [3] rest [at' none (contiguous (dt ++ rest ++ [3])) a, at' (some 1) x a, tabArr (R a).length] s
    (.cons p1 (.cons x1 (.cons (fits_tab _ _) .nil)))
  unfold shevalGrd
  refine Eq.trans (congrArg (fun (o : Option (St × List K)) => o.bind (fun r => some (c', r))) w3) ?_
  rw [List.foldlM_map, Option.map_eq_bind]
  refine congrArg (fun (o : Option (St × List K)) => o.bind (fun r => some (c', r))) ?_
  refine foldlM_congr_mem (fun b hb s => ?_) s
  simp only [List.zipWith_cons_cons, List.zipWith_nil_left, p2, x2, at_tab, readCoef_tab,
    h2 (a ++ b) (by rw [indices_app]; exact List.mem_flatMap.mpr ⟨a, ha, List.mem_map.mpr ⟨b, hb, rfl⟩⟩),
    ← hal, List.take_left, Option.bind_eq_bind, Option.bind_some]

theorem timedBoth_eq (c0 : C) (h0 : Inv c0) (s : St × List K × List K) :
    (timedBoth upd ev xm (ts.map NdArray.mem) dt (contiguous (dt ++ rest) :: contiguous (dt ++ rest ++ [3]) :: x :: ts.map NdArray.arr)
      (c0, s)).map Prod.snd =
      shevalBoth ev xm cm (dt ++ rest) [contiguous (dt ++ rest), contiguous (dt ++ rest ++ [3]), x, coef] s := by
  have hp := fits_zero (dt := dt) (rest := rest) (core := [])
  rw [List.append_nil] at hp
  have w := walk_eq (S := C × St × List K × List K) (some 0 :: some 0 :: some 1 :: ts.map (fun _ => some 0))
    (fun arrs s => match arrs with
    | pot :: grd :: x :: tas => do
      let times ← (tas.zip (ts.map NdArray.mem)).mapM (fun p => p.2 p.1.data)
      let c ← upd s.1 times
      let r ← shevalBoth ev xm (tabMem c.2) pot.dim [pot, grd, x, tabArr c.2.length] s.2
      return (c.1, r)
    | _ => none) [] dt (contiguous (dt ++ rest) :: contiguous (dt ++ rest ++ [3]) :: x :: ts.map NdArray.arr) (c0, s)
    (.cons hp (.cons fits_zero (.cons (fits_prefix hx) hT)))
  have w2 := walk_eq (S := St × List K × List K) [none, none, some 1, some 2] (fun arrs s => match arrs with
    | [pot, grd, x, coef] => do
      let v ← readPoint xm x
      let rows ← readCoef cm coef
      let r ← ev s.1 v rows
      let p ← r.2.1
      let g ← r.2.2
      let bp ← wrList s.2.1 pot.data [p]
      let bg ← wrList s.2.2 grd.data [g.x, g.y, g.z]
      return (r.1, bp, bg)
    | _ => none) [] (dt ++ rest) [contiguous (dt ++ rest), contiguous (dt ++ rest ++ [3]), x, coef] s
    (.cons (fits_new_nil _) (.cons (fits_new _ _) (.cons hx (.cons hc .nil))))
  rw [List.append_nil] at w w2
  unfold timedBoth shevalBoth
  rw [List.map_map]
  refine (congrArg (Option.map Prod.snd) w).trans (Eq.trans ?_ w2.symm)
  rw [indices_app]
  refine nested_fold Inv _ _ (fun idx s => _) _ c0 s h0 ?_
  intro a ha c s hc'
  obtain ⟨c', hi, e⟩ := hu a ha c hc'
  have hal : a.length = dt.length := (indices_valid ha).length_eq
  refine ⟨c', hi, ?_⟩
  have hz := at_zero (dt := dt) (rest := rest) (core := []) hal
  have hz3 := at_zero (dt := dt) (rest := rest) (core := [3]) hal
  have hd := at_none_dim (dt := dt) (rest := rest) (core := []) hal
  simp only [List.append_nil] at hz hd
  simp only [List.zipWith_cons_cons, hr a ha, e, hz, hz3, hd, Option.bind_eq_bind, Option.bind_some]
  obtain ⟨p1, p2⟩ := fits_append hal (fits_new_nil (dt ++ rest))
  obtain ⟨g1, g2⟩ := fits_append hal (fits_new (dt ++ rest) [3])
  obtain ⟨x1, x2⟩ := fits_append hal hx
  have w3 := walk_eq (S := St × List K × List K) [none, none, some 1, some 2] (fun arrs s => match arrs with
    | [pot, grd, x, coef] => do
      let v ← readPoint xm x
      let rows ← readCoef (tabMem (R a)) coef
      let r ← ev s.1 v rows
      let p ← r.2.1
      let g ← r.2.2
      let bp ← wrList s.2.1 pot.data [p]
      let bg ← wrList s.2.2 grd.data [g.x, g.y, g.z]
      return (r.1, bp, bg)
    | _ => none) [] rest [at' none (contiguous (dt ++ rest)) a, at' none (contiguous (dt ++ rest ++ [3])) a,
      at' (some 1) x a, tabArr (R a).length] s
    (.cons p1 (.cons g1 (.cons x1 (.cons (fits_tab _ _) .nil))))
  rw [List.append_nil] at w3
  unfold shevalBoth
  refine Eq.trans (congrArg (fun (o : Option (St × List K × List K)) => o.bind (fun r => some (c', r))) w3) ?_
  rw [List.foldlM_map, Option.map_eq_bind]
  refine congrArg (fun (o : Option (St × List K × List K)) => o.bind (fun r => some (c', r))) ?_
  refine foldlM_congr_mem (fun b hb s => ?_) s
  simp only [List.zipWith_cons_cons, List.zipWith_nil_left, p2, g2, x2, at_tab, readCoef_tab,
    h2 (a ++ b) (by rw [indices_app]; exact List.mem_flatMap.mpr ⟨a, ha, List.mem_map.mpr ⟨b, hb, rfl⟩⟩),
    ← hal, List.take_left, Option.bind_eq_bind, Option.bind_some]

omit hT hr hu hx hc h2

/-- The evaluation part of `sheval`. -/
def plain (ev : Eval St K) (junk : Nat → List K) (mode : Nat) (lead : List Nat) (x coef : NdArray K) (s0 : St) :
    Option (Result K) :=
  if mode = 1 then do
    let r ← shevalPot ev x.mem coef.mem lead [contiguous lead, x.arr, coef.arr] (s0, junk lead.prod)
    return ⟨lead, some r.2, none⟩
  else if mode = 2 then do
    let r ← shevalGrd ev x.mem coef.mem (lead ++ [3]) [contiguous (lead ++ [3]), x.arr, coef.arr]
      (s0, junk (lead ++ [3]).prod)
    return ⟨lead, none, some r.2⟩
  else do
    let r ← shevalBoth ev x.mem coef.mem lead [contiguous lead, contiguous (lead ++ [3]), x.arr, coef.arr]
      (s0, junk lead.prod, junk (lead ++ [3]).prod)
    return ⟨lead, some r.2.1, some r.2.2⟩

/-- The evaluation with changing coefficients is that with an array of coefficients. -/
theorem runTimed_eq {x coef : NdArray K} 
    (hT : List.Forall₂ (Fits dt) (ts.map (fun _ => some 0)) (ts.map NdArray.arr))
    (hr : ∀ a ∈ indices dt,
      ((List.zipWith (fun g a' => at' g a' a) (ts.map (fun _ => some 0)) (ts.map NdArray.arr)).zip
        (ts.map NdArray.mem)).mapM (fun p => p.2 p.1.data) = some (T a))
    (hu : ∀ a ∈ indices dt, ∀ c, Inv c → ∃ c', Inv c' ∧ upd c (T a) = some (c', R a))
    (hx : Fits (dt ++ rest) (some 1) x.arr) (hc : Fits (dt ++ rest) (some 2) coef.arr)
    (h2 : ∀ idx ∈ indices (dt ++ rest), readCoef coef.mem (at' (some 2) coef.arr idx) = some (R (idx.take dt.length)))
    (junk : Nat → List K) (mode : Nat) (c0 : C) (h0 : Inv c0) (s0 : St) :
    runTimed upd ev junk mode dt (dt ++ rest) ts x c0 s0 = plain ev junk mode (dt ++ rest) x coef s0 := by
  unfold runTimed plain
  simp only
  split
  · have := timedPot_eq ev (xm := x.mem) hT hr hu hx hc h2 c0 h0 (s0, junk (dt ++ rest).prod)
    rw [← this]
    cases timedPot upd ev x.mem (ts.map NdArray.mem) dt (contiguous (dt ++ rest) :: x.arr :: ts.map NdArray.arr)
      (c0, s0, junk (dt ++ rest).prod) <;> rfl
  split
  · have := timedGrd_eq ev (xm := x.mem) hT hr hu hx hc h2 c0 h0 (s0, junk (dt ++ rest ++ [3]).prod)
    rw [← this]
    cases timedGrd upd ev x.mem (ts.map NdArray.mem) dt (contiguous (dt ++ rest ++ [3]) :: x.arr :: ts.map NdArray.arr)
      (c0, s0, junk (dt ++ rest ++ [3]).prod) <;> rfl
  · have := timedBoth_eq ev (xm := x.mem) hT hr hu hx hc h2 c0 h0 (s0, junk (dt ++ rest).prod, junk (dt ++ rest ++ [3]).prod)
    rw [← this]
    cases timedBoth upd ev x.mem (ts.map NdArray.mem) dt
      (contiguous (dt ++ rest) :: contiguous (dt ++ rest ++ [3]) :: x.arr :: ts.map NdArray.arr)
      (c0, s0, junk (dt ++ rest).prod, junk (dt ++ rest ++ [3]).prod) <;> rfl

theorem foldlM_none {α S : Type} {f : S → α → Option S} {l : List α} (hl : l ≠ []) {s : S}
    (h : ∀ a ∈ l, f s a = none) : l.foldlM f s = none := by
  cases l with
  | nil => exact absurd rfl hl
  | cons a l => rw [List.foldlM_cons, h a (by simp)]; rfl

/-- A failing update of the coefficients. -/
theorem runTimed_fails {x : NdArray K}
    (hT : List.Forall₂ (Fits dt) (ts.map (fun _ => some 0)) (ts.map NdArray.arr))
    (hr : ∀ a ∈ indices dt,
      ((List.zipWith (fun g a' => at' g a' a) (ts.map (fun _ => some 0)) (ts.map NdArray.arr)).zip
        (ts.map NdArray.mem)).mapM (fun p => p.2 p.1.data) = some (T a))
    (hx : Fits (dt ++ rest) (some 1) x.arr) (junk : Nat → List K) (mode : Nat) (c0 : C)
    (hu : ∀ a ∈ indices dt, upd c0 (T a) = none) (s0 : St) :
    (indices dt ≠ [] → runTimed upd ev junk mode dt (dt ++ rest) ts x c0 s0 = none) ∧
      (indices dt = [] → ∃ r, runTimed upd ev junk mode dt (dt ++ rest) ts x c0 s0 = some r) := by
  have hp := fits_zero (dt := dt) (rest := rest) (core := [])
  rw [List.append_nil] at hp
  unfold runTimed
  simp only
  split
  · have w := walk_eq (S := C × St × List K) (some 0 :: some 1 :: ts.map (fun _ => some 0))
      (fun arrs s => match arrs with
      | pot :: x' :: tas => do
        let times ← (tas.zip (ts.map NdArray.mem)).mapM (fun p => p.2 p.1.data)
        let c ← upd s.1 times
        let r ← shevalPot ev x.mem (tabMem c.2) pot.dim [pot, x', tabArr c.2.length] s.2
        return (c.1, r)
      | _ => none) [] dt (contiguous (dt ++ rest) :: x.arr :: ts.map NdArray.arr)
      (c0, s0, junk (dt ++ rest).prod) (.cons hp (.cons (fits_prefix hx) hT))
    rw [List.append_nil] at w
    unfold timedPot
    rw [List.map_map]
    constructor
    · intro hne
      refine (congrArg (fun (o : Option (C × St × List K)) => o.bind _) (w.trans (foldlM_none hne ?_))).trans rfl
      intro a ha
      simp only [List.zipWith_cons_cons, hr a ha, hu a ha, Option.bind_eq_bind, Option.bind_some, Option.bind_none]
    · intro he
      rw [he] at w
      exact ⟨_, (congrArg (fun (o : Option (C × St × List K)) => o.bind _) w).trans rfl⟩
  split
  · have w := walk_eq (S := C × St × List K) (some 0 :: some 1 :: ts.map (fun _ => some 0))
      (fun arrs s => match arrs with
      | grd :: x' :: tas => do
        let times ← (tas.zip (ts.map NdArray.mem)).mapM (fun p => p.2 p.1.data)
        let c ← upd s.1 times
        let r ← shevalGrd ev x.mem (tabMem c.2) grd.dim [grd, x', tabArr c.2.length] s.2
        return (c.1, r)
      | _ => none) [] dt (contiguous (dt ++ rest ++ [3]) :: x.arr :: ts.map NdArray.arr)
      (c0, s0, junk (dt ++ rest ++ [3]).prod) (.cons fits_zero (.cons (fits_prefix hx) hT))
    rw [List.append_nil] at w
    unfold timedGrd
    rw [List.map_map]
    constructor
    · intro hne
      refine (congrArg (fun (o : Option (C × St × List K)) => o.bind _) (w.trans (foldlM_none hne ?_))).trans rfl
      intro a ha
      simp only [List.zipWith_cons_cons, hr a ha, hu a ha, Option.bind_eq_bind, Option.bind_some, Option.bind_none]
    · intro he
      rw [he] at w
      exact ⟨_, (congrArg (fun (o : Option (C × St × List K)) => o.bind _) w).trans rfl⟩
  · have w := walk_eq (S := C × St × List K × List K) (some 0 :: some 0 :: some 1 :: ts.map (fun _ => some 0))
      (fun arrs s => match arrs with
      | pot :: grd :: x' :: tas => do
        let times ← (tas.zip (ts.map NdArray.mem)).mapM (fun p => p.2 p.1.data)
        let c ← upd s.1 times
        let r ← shevalBoth ev x.mem (tabMem c.2) pot.dim [pot, grd, x', tabArr c.2.length] s.2
        return (c.1, r)
      | _ => none) [] dt (contiguous (dt ++ rest) :: contiguous (dt ++ rest ++ [3]) :: x.arr :: ts.map NdArray.arr)
      (c0, s0, junk (dt ++ rest).prod, junk (dt ++ rest ++ [3]).prod)
      (.cons hp (.cons fits_zero (.cons (fits_prefix hx) hT)))
    rw [List.append_nil] at w
    unfold timedBoth
    rw [List.map_map]
    constructor
    · intro hne
      refine (congrArg (fun (o : Option (C × St × List K × List K)) => o.bind _)
        (w.trans (foldlM_none hne ?_))).trans rfl
      intro a ha
      simp only [List.zipWith_cons_cons, hr a ha, hu a ha, Option.bind_eq_bind, Option.bind_some, Option.bind_none]
    · intro he
      rw [he] at w
      exact ⟨_, (congrArg (fun (o : Option (C × St × List K × List K)) => o.bind _) w).trans rfl⟩

end

end Verif.Arr
