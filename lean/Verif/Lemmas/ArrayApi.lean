/-
Lemmas on the array functions.
-/
import Verif.Model.ArrayApi
import Verif.Lemmas.Arrays

set_option linter.unusedSectionVars false

namespace Verif.Arr

open Verif.Buf Verif.Geo Verif.FullEval

variable {A : Type}

/-- Two arrays written in parallel. -/
theorem fold_write2 {α St : Type} (w1 w2 : Nat) (f : α → St → Option (St × List A × List A))
    (ad1 ad2 : α → Int) :
    ∀ (l : List α) (st : St) (pre1 buf1 pre2 buf2 : List A),
      (∀ a ∈ l, ∀ s s' v1 v2, f a s = some (s', v1, v2) → v1.length = w1 ∧ v2.length = w2) →
      buf1.length = l.length * w1 → buf2.length = l.length * w2 →
      l.map ad1 = (List.range l.length).map (fun k => ((pre1.length + k * w1 : Nat) : Int)) →
      l.map ad2 = (List.range l.length).map (fun k => ((pre2.length + k * w2 : Nat) : Int)) →
      l.foldlM (fun (x : St × List A × List A) a => (f a x.1).bind (fun r =>
          (wrList x.2.1 (ad1 a) r.2.1).bind (fun b1 =>
            (wrList x.2.2 (ad2 a) r.2.2).map (fun b2 => (r.1, b1, b2))))) (st, pre1 ++ buf1, pre2 ++ buf2) =
        l.foldlM (fun (x : St × List A × List A) a =>
          (f a x.1).map (fun r => (r.1, x.2.1 ++ r.2.1, x.2.2 ++ r.2.2))) (st, pre1, pre2)
  | [], st, pre1, buf1, pre2, buf2, _, hb1, hb2, _, _ => by
    have h1 : buf1 = [] := by simpa using hb1
    have h2 : buf2 = [] := by simpa using hb2
    simp [h1, h2]
  | a :: l, st, pre1, buf1, pre2, buf2, hf, hb1, hb2, had1, had2 => by
    rw [List.foldlM_cons, List.foldlM_cons]
    cases hfa : f a st with
    | none => rfl
    | some r =>
      obtain ⟨s', v1, v2⟩ := r
      obtain ⟨hv1, hv2⟩ := hf a (by simp) st s' v1 v2 hfa
      have aux : ∀ (w : Nat) (pre buf vs : List A) (ad : α → Int), vs.length = w →
          buf.length = (a :: l).length * w →
          (a :: l).map ad = (List.range (a :: l).length).map (fun k => ((pre.length + k * w : Nat) : Int)) →
          wrList (pre ++ buf) (ad a) vs = some ((pre ++ vs) ++ buf.drop w) ∧
          (buf.drop w).length = l.length * w ∧
          l.map ad = (List.range l.length).map (fun k => (((pre ++ vs).length + k * w : Nat) : Int)) := by
        intro w pre buf vs ad hvs hb had
        simp only [List.length_cons, List.range_succ_eq_map, List.map_cons, List.map_map,
          List.cons.injEq] at had
        obtain ⟨h1, h2⟩ := had
        refine ⟨?_, ?_, ?_⟩
        · have := wrList_append pre (buf.take w) (buf.drop w) vs
            (by rw [List.length_take, hvs, hb]; simp; nlinarith)
          rw [h1]
          simpa [List.append_assoc, List.take_append_drop] using this
        · rw [List.length_drop, hb]; simp; ring_nf; omega
        · rw [h2]
          congr 1
          funext k
          simp only [Function.comp, List.length_append, hvs]
          rw [Nat.succ_eq_add_one]
          congr 1
          ring
      obtain ⟨a1, a2, a3⟩ := aux w1 pre1 buf1 v1 ad1 hv1 hb1 had1
      obtain ⟨b1, b2, b3⟩ := aux w2 pre2 buf2 v2 ad2 hv2 hb2 had2
      simp only [Option.bind_eq_bind, Option.bind_some, a1, b1, Option.map_some]
      exact fold_write2 w1 w2 f ad1 ad2 l s' (pre1 ++ v1) (buf1.drop w1) (pre2 ++ v2) (buf2.drop w2)
        (fun a ha => hf a (by simp [ha])) a2 b2 a3 b3

/-- The addresses of the leaves of a new array. -/
theorem addr_new (lead core : List Nat) :
    (indices lead).map (fun idx => (sub (contiguous (lead ++ core)) idx).data) =
      (List.range (indices lead).length).map (fun k : Nat => ((0 + k * core.prod : Nat) : Int)) := by
  have := indices_offset core lead
  rw [indices_length]
  simp only [sub, contiguous, zero_add]
  rw [this]
  congr 1

theorem fits_new (lead core : List Nat) : Fits lead none (contiguous (lead ++ core)) :=
  ⟨by simp [contiguous, cstrides_length], core, rfl⟩

/-- Results of an evaluation collected one after the other. -/
def collect {St B C D : Type} (ev : St → B → Option (St × C)) (sel : C → Option D) :
    St → List B → Option (List D)
  | _, [] => some []
  | s, b :: l => (ev s b).bind (fun r => (sel r.2).bind (fun d => (collect ev sel r.1 l).map (d :: ·)))

theorem fold_collect {α St B C : Type} (ev : St → B → Option (St × C)) (sel : C → Option (List A))
    (pt : α → B) : ∀ (l : List α) (st : St) (pre : List A),
    (l.foldlM (fun (x : St × List A) a =>
        ((ev x.1 (pt a)).bind (fun r => (sel r.2).map (fun b => (r.1, b)))).map
          (fun r => (r.1, x.2 ++ r.2))) (st, pre)).map (fun x => x.2) =
      (collect ev sel st (l.map pt)).map (fun bs => pre ++ bs.flatten)
  | [], st, pre => by simp [collect]
  | a :: l, st, pre => by
    rw [List.foldlM_cons, List.map_cons, collect]
    cases h : ev st (pt a) with
    | none => rfl
    | some r =>
      cases h2 : sel r.2 with
      | none => simp [h2]
      | some d =>
        simp only [Option.bind_some, h2, Option.map_some, Option.bind_eq_bind]
        rw [fold_collect ev sel pt l r.1 (pre ++ d)]
        cases collect ev sel r.1 (l.map pt) <;> simp

theorem fold_collect2 {α St B C : Type} (ev : St → B → Option (St × C))
    (sel : C → Option (List A × List A)) (pt : α → B) : ∀ (l : List α) (st : St) (pre1 pre2 : List A),
    (l.foldlM (fun (x : St × List A × List A) a =>
        ((ev x.1 (pt a)).bind (fun r => (sel r.2).map (fun b => (r.1, b)))).map
          (fun r => (r.1, x.2.1 ++ r.2.1, x.2.2 ++ r.2.2))) (st, pre1, pre2)).map (fun x => x.2) =
      (collect ev sel st (l.map pt)).map
        (fun bs => (pre1 ++ (bs.map Prod.fst).flatten, pre2 ++ (bs.map Prod.snd).flatten))
  | [], st, pre1, pre2 => by simp [collect]
  | a :: l, st, pre1, pre2 => by
    rw [List.foldlM_cons, List.map_cons, collect]
    cases h : ev st (pt a) with
    | none => rfl
    | some r =>
      cases h2 : sel r.2 with
      | none => simp [h2]
      | some d =>
        simp only [Option.bind_some, h2, Option.map_some, Option.bind_eq_bind]
        rw [fold_collect2 ev sel pt l r.1 (pre1 ++ d.1) (pre2 ++ d.2)]
        cases collect ev sel r.1 (l.map pt) <;> simp

/-- Collecting without a state. -/
theorem collect_mapM {B C D : Type} (f : B → Option C) (sel : C → Option D) : ∀ l : List B,
    collect (fun (_ : Unit) b => (f b).map (fun c => ((), c))) sel () l =
      l.mapM (fun b => (f b).bind sel)
  | [] => rfl
  | b :: l => by
    rw [collect, List.mapM_cons, ← collect_mapM f sel l]
    cases h : f b with
    | none => rfl
    | some c =>
      simp only [Option.map_some, Option.bind_some, Option.bind_eq_bind]
      cases sel c <;> simp [Option.map_eq_bind, Function.comp_def]

theorem foldlM_congr_mem {α S : Type} {f g : S → α → Option S} : ∀ {l : List α},
    (∀ a ∈ l, ∀ s, f s a = g s a) → ∀ s, l.foldlM f s = l.foldlM g s
  | [], _, _ => rfl
  | a :: l, h, s => by
    rw [List.foldlM_cons, List.foldlM_cons, h a (by simp) s]
    congr 1
    funext s
    exact foldlM_congr_mem (fun a ha => h a (by simp [ha])) s

variable {K : Type} [Field K]

/-- Collecting the selected outputs of a batch. -/
theorem collect_batch [DecidableEq K] (L : Libm K) (small : K → Bool) (hi : K) (c : Config K) (mode : Nat)
    {D : Type} (sel : FullEval.Out K → Option D) : ∀ (l : List (V3 K × List (K × K))) (s : State K),
    collect (fun s q => modelEval L small hi c mode s q.1 q.2) sel s l =
      (batch L small hi c mode s l).bind (fun os => os.mapM sel)
  | [], s => rfl
  | q :: l, s => by
    obtain ⟨v, coef⟩ := q
    rw [collect, batch]
    simp only [Option.bind_eq_bind]
    cases h : modelEval L small hi c mode s v coef with
    | none => rfl
    | some r =>
      simp only [Option.bind_some]
      rw [collect_batch L small hi c mode sel l r.1]
      cases batch L small hi c mode r.1 l with
      | none => cases sel r.2 <;> rfl
      | some os =>
        cases h2 : sel r.2 <;> simp [h2]
        cases os.mapM sel <;> rfl

/-- The recursion with one new array as the output. -/
theorem walk_collect {A St B C : Type} {gs : List (Option Nat)} {leaf : List ArrD → St × List A → Option (St × List A)}
    {core lead : List Nat} {as : List ArrD} (h : List.Forall₂ (Fits lead) gs as)
    (w : Nat) (ev : St → B → Option (St × C)) (sel : C → Option (List A)) (pt : List Nat → B)
    (ad : List Nat → Int)
    (hl : ∀ idx ∈ indices lead, ∀ s, leaf (List.zipWith (fun g a => at' g a idx) gs as) s =
      ((ev s.1 (pt idx)).bind (fun r => (sel r.2).map (fun b => (r.1, b)))).bind
        (fun r => (wrList s.2 (ad idx) r.2).map (fun b => (r.1, b))))
    (hw : ∀ c v, sel c = some v → v.length = w)
    (had : (indices lead).map ad =
      (List.range (indices lead).length).map (fun k : Nat => ((0 + k * w : Nat) : Int)))
    (s0 : St) (buf : List A) (hb : buf.length = lead.prod * w) :
    (walk gs core.length leaf (lead ++ core) as (s0, buf)).map (fun r => r.2) =
      (collect ev sel s0 ((indices lead).map pt)).map List.flatten := by
  rw [walk_eq gs leaf core lead as (s0, buf) h, foldlM_congr_mem hl,
    show (s0, buf) = (s0, [] ++ buf) from rfl,
    fold_write w (fun idx s => (ev s (pt idx)).bind (fun r => (sel r.2).map (fun b => (r.1, b)))) ad
      (indices lead) s0 [] buf ?_ (by rw [indices_length, hb]) (by simpa using had), fold_collect ev sel pt]
  · rfl
  · intro idx _ s s' vs hvs
    simp only [Option.bind_eq_some_iff, Option.map_eq_some_iff] at hvs
    obtain ⟨r, -, d, hd, hvs⟩ := hvs
    obtain ⟨-, rfl⟩ := Prod.mk.inj hvs
    exact hw _ _ hd

/-- The recursion with two new arrays as the outputs. -/
theorem walk_collect2 {A St B C : Type} {gs : List (Option Nat)}
    {leaf : List ArrD → St × List A × List A → Option (St × List A × List A)}
    {core lead : List Nat} {as : List ArrD} (h : List.Forall₂ (Fits lead) gs as)
    (w1 w2 : Nat) (ev : St → B → Option (St × C)) (sel : C → Option (List A × List A)) (pt : List Nat → B)
    (ad1 ad2 : List Nat → Int)
    (hl : ∀ idx ∈ indices lead, ∀ s, leaf (List.zipWith (fun g a => at' g a idx) gs as) s =
      ((ev s.1 (pt idx)).bind (fun r => (sel r.2).map (fun b => (r.1, b)))).bind
        (fun r => (wrList s.2.1 (ad1 idx) r.2.1).bind (fun b1 =>
          (wrList s.2.2 (ad2 idx) r.2.2).map (fun b2 => (r.1, b1, b2)))))
    (hw : ∀ c v, sel c = some v → v.1.length = w1 ∧ v.2.length = w2)
    (had1 : (indices lead).map ad1 =
      (List.range (indices lead).length).map (fun k : Nat => ((0 + k * w1 : Nat) : Int)))
    (had2 : (indices lead).map ad2 =
      (List.range (indices lead).length).map (fun k : Nat => ((0 + k * w2 : Nat) : Int)))
    (s0 : St) (buf1 buf2 : List A) (hb1 : buf1.length = lead.prod * w1) (hb2 : buf2.length = lead.prod * w2) :
    (walk gs core.length leaf (lead ++ core) as (s0, buf1, buf2)).map (fun r => r.2) =
      (collect ev sel s0 ((indices lead).map pt)).map
        (fun bs => ((bs.map Prod.fst).flatten, (bs.map Prod.snd).flatten)) := by
  rw [walk_eq gs leaf core lead as (s0, buf1, buf2) h, foldlM_congr_mem hl,
    show (s0, buf1, buf2) = (s0, [] ++ buf1, [] ++ buf2) from rfl,
    fold_write2 w1 w2 (fun idx s => (ev s (pt idx)).bind (fun r => (sel r.2).map (fun b => (r.1, b)))) ad1 ad2
      (indices lead) s0 [] buf1 [] buf2 ?_ (by rw [indices_length, hb1]) (by rw [indices_length, hb2])
      (by simpa using had1) (by simpa using had2), fold_collect2 ev sel pt]
  · rfl
  · intro idx _ s s' v1 v2 hvs
    simp only [Option.bind_eq_some_iff, Option.map_eq_some_iff] at hvs
    obtain ⟨r, -, d, hd, hvs⟩ := hvs
    obtain ⟨-, rfl⟩ := Prod.mk.inj hvs
    exact hw _ _ hd

theorem fold_unit {A α : Type} (f : α → Option (List A)) (ad : α → Int) : ∀ (l : List α) (buf : List A),
    l.foldlM (fun buf a => (f a).bind (fun v => wrList buf (ad a) v)) buf =
      (l.foldlM (fun (x : Unit × List A) a => ((f a).map (fun v => ((), v))).bind (fun r =>
        (wrList x.2 (ad a) r.2).map (fun b => (r.1, b)))) ((), buf)).map (fun x => x.2)
  | [], _ => rfl
  | a :: l, buf => by
    rw [List.foldlM_cons, List.foldlM_cons]
    cases f a with
    | none => rfl
    | some v =>
      simp only [Option.bind_some, Option.map_some, Option.bind_eq_bind]
      cases wrList buf (ad a) v with
      | none => rfl
      | some b =>
        simp only [Option.bind_some, Option.map_some]
        exact fold_unit f ad l b

/-- The recursion with one new array as the output and without a state. -/
theorem walk_mapM {A : Type} {gs : List (Option Nat)} {leaf : List ArrD → List A → Option (List A)}
    {core lead : List Nat} {as : List ArrD} (h : List.Forall₂ (Fits lead) gs as)
    (w : Nat) (f : List Nat → Option (List A)) (ad : List Nat → Int)
    (hl : ∀ idx ∈ indices lead, ∀ s, leaf (List.zipWith (fun g a => at' g a idx) gs as) s =
      (f idx).bind (fun v => wrList s (ad idx) v))
    (hw : ∀ idx v, f idx = some v → v.length = w)
    (had : (indices lead).map ad =
      (List.range (indices lead).length).map (fun k : Nat => ((0 + k * w : Nat) : Int)))
    (buf : List A) (hb : buf.length = lead.prod * w) :
    walk gs core.length leaf (lead ++ core) as buf = ((indices lead).mapM f).map List.flatten := by
  rw [walk_eq gs leaf core lead as buf h, foldlM_congr_mem hl, fold_unit,
    show ((), buf) = ((), [] ++ buf) from rfl,
    fold_write w (fun idx (s : Unit) => (f idx).map (fun v => ((), v))) ad
      (indices lead) () [] buf ?_ (by rw [indices_length, hb]) (by simpa using had)]
  · have e := fold_collect (fun (_ : Unit) idx => (f idx).map (fun c => ((), c))) some id (indices lead) ()
      ([] : List A)
    rw [collect_mapM f some] at e
    simp only [List.map_id, List.nil_append, Option.bind_fun_some, id] at e
    rw [← e]
    congr 2
    funext x a
    cases f a <;> rfl
  · intro idx _ s s' vs hvs
    simp only [Option.map_eq_some_iff] at hvs
    obtain ⟨d, hd, hvs⟩ := hvs
    obtain ⟨-, rfl⟩ := Prod.mk.inj hvs
    exact hw _ _ hd

theorem addr_new_nil (lead : List Nat) :
    (indices lead).map (fun idx => (sub (contiguous lead) idx).data) =
      (List.range (indices lead).length).map (fun k : Nat => ((0 + k * 1 : Nat) : Int)) := by
  have := addr_new lead []
  rwa [List.append_nil] at this

theorem fits_new_nil (lead : List Nat) : Fits lead none (contiguous lead) := by
  simpa using fits_new lead []

section leaves
variable {St : Type} (ev : Eval St K) (xm cm : Int → Option K) (lead : List Nat) (x coef : ArrD)
  (hx : Fits lead (some 1) x) (hc : Fits lead (some 2) coef) (X : List Nat → V3 K)
  (C : List Nat → List (K × K))
  (h1 : ∀ idx ∈ indices lead, readPoint xm (at' (some 1) x idx) = some (X idx))
  (h2 : ∀ idx ∈ indices lead, readCoef cm (at' (some 2) coef idx) = some (C idx))

include hx hc h1 h2

theorem shevalPot_eq (s0 : St) (buf : List K) (hb : buf.length = lead.prod) :
    (shevalPot ev xm cm lead [contiguous lead, x, coef] (s0, buf)).map (fun r => r.2) =
      (collect (fun s (q : V3 K × List (K × K)) => ev s q.1 q.2) (fun o => o.1.map (fun p => [p])) s0
        ((indices lead).map (fun idx => (X idx, C idx)))).map List.flatten := by
  have := walk_collect (core := []) (gs := [none, some 1, some 2])
    (.cons (fits_new_nil lead) (.cons hx (.cons hc .nil))) 1
    (fun s (q : V3 K × List (K × K)) => ev s q.1 q.2) (fun o => o.1.map (fun p => [p]))
    (fun idx => (X idx, C idx)) (fun idx => (sub (contiguous lead) idx).data)
    (leaf := fun arrs (s : St × List K) => match arrs with
    | [pot, x, coef] => do
      let v ← readPoint xm x
      let rows ← readCoef cm coef
      let r ← ev s.1 v rows
      let p ← r.2.1
      let buf ← wrList s.2 pot.data [p]
      return (r.1, buf)
    | _ => none) ?_ ?_ (addr_new_nil lead) s0 buf (by simpa using hb)
  · rw [List.append_nil] at this
    exact this
  · intro idx hidx s
    simp only [List.zipWith_cons_cons, List.zipWith_nil_left]
    rw [h1 idx hidx, h2 idx hidx]
    simp only [Option.bind_eq_bind, Option.bind_some]
    cases ev s.1 (X idx) (C idx) with
    | none => rfl
    | some r =>
      cases hr : r.2.1 with
      | none => simp [hr]
      | some p =>
        simp only [Option.bind_some, hr, Option.map_some, at']
        cases wrList s.2 (sub (contiguous lead) idx).data [p] <;> rfl
  · intro c v h
    simp only [Option.map_eq_some_iff] at h
    obtain ⟨p, -, rfl⟩ := h
    rfl

theorem shevalGrd_eq (s0 : St) (buf : List K) (hb : buf.length = (lead ++ [3]).prod) :
    (shevalGrd ev xm cm (lead ++ [3]) [contiguous (lead ++ [3]), x, coef] (s0, buf)).map (fun r => r.2) =
      (collect (fun s (q : V3 K × List (K × K)) => ev s q.1 q.2)
        (fun o => o.2.map (fun g => [g.x, g.y, g.z])) s0
        ((indices lead).map (fun idx => (X idx, C idx)))).map List.flatten := by
  refine walk_collect (core := [3]) (gs := [none, some 1, some 2])
    (.cons (fits_new lead [3]) (.cons hx (.cons hc .nil))) 3
    (fun s (q : V3 K × List (K × K)) => ev s q.1 q.2) (fun o => o.2.map (fun g => [g.x, g.y, g.z]))
    (fun idx => (X idx, C idx)) (fun idx => (sub (contiguous (lead ++ [3])) idx).data)
    ?_ ?_ (addr_new lead [3]) s0 buf (by simpa using hb)
  · intro idx hidx s
    simp only [List.zipWith_cons_cons, List.zipWith_nil_left]
    rw [h1 idx hidx, h2 idx hidx]
    simp only [Option.bind_eq_bind, Option.bind_some]
    cases ev s.1 (X idx) (C idx) with
    | none => rfl
    | some r =>
      cases hr : r.2.2 with
      | none => simp [hr]
      | some g =>
        simp only [Option.bind_some, hr, Option.map_some, at']
        cases wrList s.2 (sub (contiguous (lead ++ [3])) idx).data [g.x, g.y, g.z] <;> rfl
  · intro c v h
    simp only [Option.map_eq_some_iff] at h
    obtain ⟨p, -, rfl⟩ := h
    rfl

theorem shevalBoth_eq (s0 : St) (bp bg : List K) (hp : bp.length = lead.prod)
    (hg : bg.length = (lead ++ [3]).prod) :
    (shevalBoth ev xm cm lead [contiguous lead, contiguous (lead ++ [3]), x, coef] (s0, bp, bg)).map
        (fun r => r.2) =
      (collect (fun s (q : V3 K × List (K × K)) => ev s q.1 q.2)
        (fun o => o.1.bind (fun p => o.2.map (fun g => ([p], [g.x, g.y, g.z])))) s0
        ((indices lead).map (fun idx => (X idx, C idx)))).map
          (fun bs => ((bs.map Prod.fst).flatten, (bs.map Prod.snd).flatten)) := by
  have := walk_collect2 (core := []) (gs := [none, none, some 1, some 2])
    (.cons (fits_new_nil lead) (.cons (fits_new lead [3]) (.cons hx (.cons hc .nil)))) 1 3
    (fun s (q : V3 K × List (K × K)) => ev s q.1 q.2)
    (fun o => o.1.bind (fun p => o.2.map (fun g => ([p], [g.x, g.y, g.z]))))
    (fun idx => (X idx, C idx)) (fun idx => (sub (contiguous lead) idx).data)
    (fun idx => (sub (contiguous (lead ++ [3])) idx).data)
    (leaf := fun arrs (s : St × List K × List K) => match arrs with
    | [pot, grd, x, coef] => do
      let v ← readPoint xm x
      let rows ← readCoef cm coef
      let r ← ev s.1 v rows
      let p ← r.2.1
      let g ← r.2.2
      let bp ← wrList s.2.1 pot.data [p]
      let bg ← wrList s.2.2 grd.data [g.x, g.y, g.z]
      return (r.1, bp, bg)
    | _ => none) ?_ ?_ (addr_new_nil lead) (addr_new lead [3]) s0 bp bg (by simpa using hp) (by simpa using hg)
  · rw [List.append_nil] at this
    exact this
  · intro idx hidx s
    simp only [List.zipWith_cons_cons, List.zipWith_nil_left]
    rw [h1 idx hidx, h2 idx hidx]
    simp only [Option.bind_eq_bind, Option.bind_some]
    cases ev s.1 (X idx) (C idx) with
    | none => rfl
    | some r =>
      cases hr : r.2.1 with
      | none => simp [hr]
      | some p =>
        cases hr2 : r.2.2 with
        | none => simp [hr, hr2]
        | some g =>
          simp only [Option.bind_some, hr, hr2, Option.map_some, at']
          cases wrList s.2.1 (sub (contiguous lead) idx).data [p] with
          | none => rfl
          | some b1 =>
            simp only [Option.bind_some]
            cases wrList s.2.2 (sub (contiguous (lead ++ [3])) idx).data [g.x, g.y, g.z] <;> rfl
  · intro c v h
    simp only [Option.bind_eq_some_iff, Option.map_eq_some_iff] at h
    obtain ⟨p, -, g, -, rfl⟩ := h
    exact ⟨rfl, rfl⟩

end leaves

end Verif.Arr
