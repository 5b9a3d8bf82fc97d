/-
Lemmas on the batch evaluation and its caches.
-/
import Verif.Model.ShEval
import Verif.Lemmas.Composed
import Verif.Lemmas.TimeDep

set_option linter.unusedSectionVars false

namespace Verif.ShEval

open Verif.Interp Verif.Coeffs Verif.Spec Verif.Bisect

variable {K I P Q R C O : Type} [Field K] [LinearOrder K]

theorem X_eq_true {a b : X K} (h : X.eq a b = true) : a = b ∧ a ≠ .nan := by
  cases a <;> cases b <;> simp_all [X.eq]

theorem X_eq_nan_left (b : X K) : X.eq .nan b = false := rfl

theorem X_eq_nan_right (a : X K) : X.eq a .nan = false := by cases a <;> rfl

/-- Cache invariant: each buffer belongs to its last coordinate, unless that one is NaN. -/
def CacheOk (k : Kernel K I P Q R C O) (c : Cache K P Q R) : Prop :=
  (c.clatLast = .nan ∨ c.lp = k.legendre c.clatLast) ∧
  (c.clonLast = .nan ∨ c.lcs = k.cossin c.clonLast) ∧
  (c.cradLast = .nan ∨ c.rrp = k.radpow c.cradLast)

/-- Direct evaluation of one point, no cache. -/
def direct (k : Kernel K I P Q R C O) (x : I) (coeff : C) : O :=
  k.eval x (k.legendre (k.clat x)) (k.cossin (k.clon x)) (k.radpow (k.crad x)) coeff

theorem cached {B : Type} (f : X K → B) (last new : X K) (buf : B)
    (h : last = .nan ∨ buf = f last) :
    (if (!(X.eq last new)) = true then f new else buf) = f new := by
  cases he : X.eq last new with
  | false => simp
  | true =>
    obtain ⟨rfl, hn⟩ := X_eq_true he
    rcases h with h | h
    · exact absurd h hn
    · simp [h]

theorem modelEval_ok (k : Kernel K I P Q R C O) (c : Cache K P Q R) (h : CacheOk k c) (x : I)
    (coeff : C) : CacheOk k (modelEval k c x coeff).1 ∧ (modelEval k c x coeff).2 = direct k x coeff := by
  obtain ⟨h1, h2, h3⟩ := h
  unfold modelEval direct CacheOk
  simp only [cached _ _ _ _ h1, cached _ _ _ _ h2, cached _ _ _ _ h3]
  simp

theorem shevalBatch_ok (k : Kernel K I P Q R C O) (l : List (I × C)) (c : Cache K P Q R)
    (h : CacheOk k c) :
    CacheOk k (shevalBatch k c l).1 ∧
      (shevalBatch k c l).2 = l.map (fun p => direct k p.1 p.2) := by
  induction l generalizing c with
  | nil => exact ⟨h, rfl⟩
  | cons p l ih =>
    obtain ⟨x, coeff⟩ := p
    obtain ⟨h1, h2⟩ := modelEval_ok k c h x coeff
    obtain ⟨h3, h4⟩ := ih _ h1
    simp only [shevalBatch]
    exact ⟨h3, by rw [h4, h2]; rfl⟩

theorem cacheInit_ok (k : Kernel K I P Q R C O) (lp : P) (lcs : Q) (rrp : R) :
    CacheOk k (cacheInit lp lcs rrp) := ⟨Or.inl rfl, Or.inl rfl, Or.inl rfl⟩

/-! ### coefficients in time -/

theorem offsetOf_spec (n m : Int) :
    |offsetOf n m| = rowIdx n m ∧ decide (offsetOf n m < 0) = colIdx m := by
  have h := two_tri n
  have hnn : 0 ≤ n * (n + 1) := by
    rcases lt_or_ge n 0 with h0 | h0
    · nlinarith
    · positivity
  have htd : (n * (n + 1)).tdiv 2 = n * (n + 1) / 2 := Int.tdiv_eq_ediv_of_nonneg hnn
  unfold offsetOf rowIdx colIdx
  simp only [htd]
  generalize n * (n + 1) / 2 = t at *
  rcases lt_or_ge m 0 with hm | hm
  · simp only [hm, if_true, abs_of_neg hm, decide_true]
    constructor
    · rw [abs_of_neg (by omega)]; omega
    · simp; omega
  · simp only [not_lt.mpr hm, if_false, abs_of_nonneg hm]
    constructor
    · rw [abs_of_nonneg (by omega)]; omega
    · simp; omega

/-- Cell of a coefficient. -/
def key (e : Int × Int) : Nat × Bool := ((rowIdx e.1 e.2).toNat, colIdx e.2)

/-- What `parse_coefset` leaves to the caller, plus the shapes it checks. -/
structure SetOk (d : Int) (s : CoefSet K) : Prop where
  kind : s.kind = .c0 ∨ s.kind = .c1
  nodes : minNodes s.kind ≤ s.ct.length
  size : s.ct.length < 2 ^ 64
  len : s.cv.length = s.cm.length
  rows : ∀ row ∈ s.cv, row.length = s.ct.length
  index : ∀ e ∈ s.cm, |e.2| ≤ e.1 ∧ e.1 ≤ d

theorem key_inj {a b : Int × Int} (ha : |a.2| ≤ a.1) (hb : |b.2| ≤ b.1) (h : key a = key b) :
    a = b := by
  unfold key at h
  simp only [Prod.mk.injEq] at h
  have h1 := rowIdx_nonneg a.1 a.2
  have h2 := rowIdx_nonneg b.1 b.2
  obtain ⟨h3, h4⟩ := idx_inj _ _ _ _ ha hb (by omega) h.2
  exact Prod.ext h3 h4

theorem key_lt {d : Int} {a : Int × Int} (ha : |a.2| ≤ a.1 ∧ a.1 ≤ d) :
    (key a).1 < (coeffSize d).toNat := by
  have h1 := rowIdx_nonneg a.1 a.2
  have h2 := rowIdx_lt a.1 a.2 d ha.1 ha.2
  unfold key; simp only; omega

/-- The write loop, for any kind of series. -/
theorem write_spec {B V : Type} [Zero V] (d : Int) (cm : List (Int × Int)) (cv : List B)
    (hlen : cv.length = cm.length) (hindex : ∀ e ∈ cm, |e.2| ≤ e.1 ∧ e.1 ≤ d) (hnd : cm.Nodup)
    (value : B → Option V) (f : B → V)
    (hf : ∀ row ∈ cv, value row = some (f row)) (coef : Tab V)
    (hl : coef.length = (coeffSize d).toNat) :
    ∃ coef', (cm.zip cv).foldlM (fun t e => do
        let v ← value e.2
        let o := offsetOf e.1.1 e.1.2
        setItem t |o| (decide (o < 0)) v) coef = some coef' ∧ coef'.length = coef.length ∧
      (∀ e ∈ cm.zip cv, cell coef' (key e.1).1 (key e.1).2 = f e.2) ∧
      ∀ r c, (∀ e ∈ cm, key e ≠ (r, c)) → cell coef' r c = cell coef r c := by
  have hz : (cm.zip cv).map Prod.fst = cm := by
    rw [List.map_fst_zip]; exact le_of_eq hlen.symm
  have hmem : ∀ e ∈ cm.zip cv, e.1 ∈ cm ∧ e.2 ∈ cv := fun e he =>
    ⟨(List.of_mem_zip (show (e.1, e.2) ∈ _ from he)).1, (List.of_mem_zip (show (e.1, e.2) ∈ _ from he)).2⟩
  have hrew : ∀ (l : List ((Int × Int) × B)) (t : Tab V), (∀ e ∈ l, e.2 ∈ cv) →
      l.foldlM (fun t e => do
        let v ← value e.2
        let o := offsetOf e.1.1 e.1.2
        setItem t |o| (decide (o < 0)) v) t =
      (l.map (fun e => (e.1, f e.2))).foldlM
        (fun t e => setItem t (rowIdx e.1.1 e.1.2) (colIdx e.1.2) e.2) t := by
    intro l
    induction l with
    | nil => intro t _; rfl
    | cons e l ih =>
      intro t hl
      obtain ⟨h1, h2⟩ := offsetOf_spec e.1.1 e.1.2
      simp only [List.foldlM_cons, List.map_cons, hf _ (hl e (by simp)), h1, h2,
        Option.bind_eq_bind, Option.bind_some]
      congr 1
      funext t'
      exact ih t' (fun x hx => hl x (List.mem_cons_of_mem _ hx))
  rw [hrew _ _ (fun e he => (hmem e he).2)]
  obtain ⟨t', h1, h2, h3, h4⟩ := fill_spec ((cm.zip cv).map (fun e => (e.1, f e.2))) coef
    (by
      intro e he
      obtain ⟨e', he', rfl⟩ := List.mem_map.mp he
      rw [hl]
      exact key_lt (hindex _ (hmem e' he').1))
    (by
      rw [List.pairwise_map]
      have : ((cm.zip cv).map Prod.fst).Nodup := by rw [hz]; exact hnd
      rw [List.nodup_iff_pairwise_ne, List.pairwise_map] at this
      refine ((List.Pairwise.and_mem.mp this).imp ?_)
      rintro a b ⟨ha, hb, hne⟩ heq
      exact hne (key_inj (hindex _ (hmem a ha).1).1 (hindex _ (hmem b hb).1).1 heq))
  refine ⟨t', h1, h2, ?_, ?_⟩
  · intro e he
    exact h3 (e.1, f e.2) (List.mem_map.mpr ⟨e, he, rfl⟩)
  · intro r c hr
    apply h4
    intro e he
    obtain ⟨e', he', rfl⟩ := List.mem_map.mp he
    exact hr _ (hmem e' he').1

/-- The write loop of a set. -/
theorem writeSet_spec (d : Int) (s : CoefSet K) (hs : SetOk d s) (hnd : s.cm.Nodup)
    (value : List (X K) → Option (X K)) (f : List (X K) → X K)
    (hf : ∀ row ∈ s.cv, value row = some (f row)) (coef : Tab (X K))
    (hl : coef.length = (coeffSize d).toNat) :
    ∃ coef', writeSet value s coef = some coef' ∧ coef'.length = coef.length ∧
      (∀ e ∈ s.cm.zip s.cv, cell coef' (key e.1).1 (key e.1).2 = f e.2) ∧
      ∀ r c, (∀ e ∈ s.cm, key e ≠ (r, c)) → cell coef' r c = cell coef r c :=
  write_spec d s.cm s.cv hs.len hs.index hnd value f hf coef hl

/-- Invariant of one set: the remembered segment of a piecewise constant set is that of
the stored coefficients. -/
def SetInv (s : CoefSet K) (i : Int) (coef : Tab (X K)) : Prop :=
  s.kind = .c0 → i = -1 ∨ ∀ e ∈ s.cm.zip s.cv, rd e.2 i = some (cell coef (key e.1).1 (key e.1).2)

/-- The stored coefficients of the set are those of the time `t`. -/
def SetAt (t : X K) (s : CoefSet K) (coef : Tab (X K)) : Prop :=
  ∀ e ∈ s.cm.zip s.cv, interp s.kind true t s.ct e.2 = .ok (cell coef (key e.1).1 (key e.1).2)

theorem interp0_of (t : X K) (ct row : List (X K)) (hn : 1 ≤ ct.length) (hl : row.length = ct.length)
    (b : Basis K) (hb : interp0Basis t ct = some b) (v : X K) (hv : interp0Eval b row = some v) :
    interp .c0 true t ct row = .ok v := by
  unfold interp
  rw [if_neg (by omega), if_neg (by simp only [minNodes]; omega)]
  unfold interpPoint
  have := rd_eq ct ((ct.length : Int) - 1) (by omega) (by omega)
  simp [getBasis, evalBasis, hb, this, hv]

theorem interp1_of (t : X K) (ct row : List (X K)) (hn : 2 ≤ ct.length) (hl : row.length = ct.length)
    (b : Basis K) (hb : interp1Basis t ct = some b) (v : X K) (hv : interp1Eval b row = some v) :
    interp .c1 true t ct row = .ok v := by
  unfold interp
  rw [if_neg (by omega), if_neg (by simp only [minNodes]; omega)]
  unfold interpPoint
  have := rd_eq ct ((ct.length : Int) - 1) (by omega) (by omega)
  simp [getBasis, evalBasis, hb, this, hv]

theorem basis0 (t : X K) (ct : List (X K)) (hn : 1 ≤ ct.length) (h64 : ct.length < 2 ^ 64) :
    ∃ b, interp0Basis t ct = some b ∧ 0 ≤ b.i ∧ b.i < ct.length := by
  obtain ⟨i0, hi0⟩ := Option.ne_none_iff_exists'.mp (bisectRightP_safe (fun a => X.le a t) ct)
  refine ⟨⟨i0, clip i0 0 (sizeSub ct.length 1), [.fin 1]⟩, by simp [interp0Basis, hi0], ?_⟩
  rw [sizeSub_eq _ _ hn h64]
  have := clip_bounds i0 ((ct.length : Int) - 1) (by omega)
  simp only [Nat.cast_one]; omega

theorem basis1 (t : X K) (ct : List (X K)) (hn : 2 ≤ ct.length) (h64 : ct.length < 2 ^ 64) :
    ∃ b, interp1Basis t ct = some b ∧ 0 ≤ b.i ∧ b.i + 1 < ct.length ∧ b.b.length = 2 := by
  obtain ⟨i0, hi0⟩ := Option.ne_none_iff_exists'.mp (bisectRightP_safe (fun a => X.le a t) ct)
  have hc := clip_bounds i0 ((ct.length : Int) - 2) (by omega)
  have h1 := rd_eq ct (clip i0 0 ((ct.length : Int) - 2)) (by omega) (by omega)
  have h2 := rd_eq ct (clip i0 0 ((ct.length : Int) - 2) + 1) (by omega) (by omega)
  have hs : sizeSub ct.length 2 = (ct.length : Int) - 2 := sizeSub_eq _ _ hn h64
  unfold interp1Basis
  simp only [hi0, hs, h1, h2, Option.bind_eq_bind, Option.bind_some]
  exact ⟨_, rfl, by simp only; omega, by simp only; omega, rfl⟩

theorem setInterp_spec (d : Int) (t : X K) (s : CoefSet K) (hs : SetOk d s) (hnd : s.cm.Nodup)
    (i : Int) (coef : Tab (X K)) (hl : coef.length = (coeffSize d).toNat) (hi : SetInv s i coef) :
    ∃ coef' i', setInterp t s i coef = some (coef', i') ∧ coef'.length = coef.length ∧
      SetInv s i' coef' ∧ SetAt t s coef' ∧
      ∀ r c, (∀ e ∈ s.cm, key e ≠ (r, c)) → cell coef' r c = cell coef r c := by
  have hrows : ∀ e ∈ s.cm.zip s.cv, e.2.length = s.ct.length := fun e he =>
    hs.rows _ (List.of_mem_zip (show (e.1, e.2) ∈ _ from he)).2
  rcases hs.kind with hk | hk
  · have hn : 1 ≤ s.ct.length := by have := hs.nodes; rw [hk] at this; exact this
    obtain ⟨b, hb, hb0, hb1⟩ := basis0 t s.ct hn hs.size
    unfold setInterp
    simp only [hk, setInterp0, hb, Option.bind_eq_bind, Option.bind_some]
    by_cases hie : i = b.i
    · rw [if_pos hie]
      have hcells : ∀ e ∈ s.cm.zip s.cv, rd e.2 i = some (cell coef (key e.1).1 (key e.1).2) := by
        rcases hi hk with h | h
        · omega
        · exact h
      refine ⟨coef, i, rfl, rfl, hi, ?_, fun _ _ _ => rfl⟩
      intro e he
      rw [hk]
      exact interp0_of t s.ct e.2 hn (hrows e he) b hb _ (by unfold interp0Eval; rw [← hie]; exact hcells e he)
    · rw [if_neg hie]
      have hv : ∀ row ∈ s.cv, interp0Eval b row = some (row[b.i.toNat]?.getD .nan) := by
        intro row hrow
        have := hs.rows row hrow
        unfold interp0Eval
        rw [rd_eq row b.i hb0 (by omega)]
        simp [List.getElem?_eq_getElem (show b.i.toNat < row.length by omega)]
      obtain ⟨coef', h1, h2, h3, h4⟩ := writeSet_spec d s hs hnd (interp0Eval b)
        (fun row => row[b.i.toNat]?.getD .nan) hv coef hl
      refine ⟨coef', b.i, by simp [h1], h2, ?_, ?_, h4⟩
      · intro _
        right
        intro e he
        rw [h3 e he]
        exact hv _ (List.of_mem_zip (show (e.1, e.2) ∈ _ from he)).2
      · intro e he
        rw [hk, h3 e he]
        exact interp0_of t s.ct e.2 hn (hrows e he) b hb _
          (hv _ (List.of_mem_zip (show (e.1, e.2) ∈ _ from he)).2)
  · have hn : 2 ≤ s.ct.length := by have := hs.nodes; rw [hk] at this; exact this
    obtain ⟨b, hb, hb0, hb1, hbb⟩ := basis1 t s.ct hn hs.size
    unfold setInterp
    simp only [hk, setInterp1, hb, Option.bind_eq_bind, Option.bind_some]
    have hv : ∀ row ∈ s.cv, interp1Eval b row = some ((interp1Eval b row).getD .nan) := by
      intro row hrow
      have := hs.rows row hrow
      have h0 : b.b[0]? = some b.b[0] := List.getElem?_eq_getElem (by omega)
      have h1 : b.b[1]? = some b.b[1] := List.getElem?_eq_getElem (by omega)
      unfold interp1Eval
      rw [rd_eq row b.i hb0 (by omega), rd_eq row (b.i + 1) (by omega) (by omega), h0, h1]
      rfl
    obtain ⟨coef', h1, h2, h3, h4⟩ := writeSet_spec d s hs hnd (interp1Eval b) _ hv coef hl
    refine ⟨coef', i, by simp [h1], h2, ?_, ?_, h4⟩
    · intro h; rw [hk] at h; exact absurd h (by decide)
    · intro e he
      rw [hk, h3 e he]
      exact interp1_of t s.ct e.2 hn (hrows e he) b hb _
        (hv _ (List.of_mem_zip (show (e.1, e.2) ∈ _ from he)).2)

/-- All coefficients of the sets are different. -/
def Disjoint (sets : List (CoefSet K)) : Prop := (sets.flatMap (fun s => s.cm)).Nodup

theorem SetAt.congr {t : X K} {s : CoefSet K} {coef coef' : Tab (X K)} (h : SetAt t s coef)
    (hc : ∀ e ∈ s.cm, cell coef' (key e).1 (key e).2 = cell coef (key e).1 (key e).2) :
    SetAt t s coef' := by
  intro e he
  rw [hc _ (List.of_mem_zip (show (e.1, e.2) ∈ _ from he)).1]
  exact h e he

theorem SetInv.congr {s : CoefSet K} {i : Int} {coef coef' : Tab (X K)} (h : SetInv s i coef)
    (hc : ∀ e ∈ s.cm, cell coef' (key e).1 (key e).2 = cell coef (key e).1 (key e).2) :
    SetInv s i coef' := by
  intro hk
  refine (h hk).imp id (fun h e he => ?_)
  rw [hc _ (List.of_mem_zip (show (e.1, e.2) ∈ _ from he)).1]
  exact h e he

theorem coeffInterp_spec (d : Int) (t : X K) (sets : List (CoefSet K)) (idx : List Int)
    (coef : Tab (X K)) (hs : ∀ s ∈ sets, SetOk d s) (hd : Disjoint sets)
    (hl : coef.length = (coeffSize d).toNat)
    (hi : List.Forall₂ (fun s i => SetInv s i coef) sets idx) :
    ∃ coef' idx', coeffInterp t sets idx coef = some (coef', idx') ∧ coef'.length = coef.length ∧
      List.Forall₂ (fun s i => SetInv s i coef') sets idx' ∧ (∀ s ∈ sets, SetAt t s coef') ∧
      ∀ r c, (∀ s ∈ sets, ∀ e ∈ s.cm, key e ≠ (r, c)) → cell coef' r c = cell coef r c := by
  induction sets generalizing idx coef with
  | nil =>
    cases hi
    exact ⟨coef, [], rfl, rfl, .nil, by simp, fun _ _ _ => rfl⟩
  | cons s sets ih =>
    cases hi with
    | @cons _ i _ idx hi1 hi2 =>
    unfold Disjoint at hd
    rw [List.flatMap_cons, List.nodup_append] at hd
    obtain ⟨hd1, hd2, hd3⟩ := hd
    have hdis : ∀ e ∈ s.cm, ∀ s' ∈ sets, ∀ e' ∈ s'.cm, key e ≠ key e' := by
      intro e he s' hs' e' he' heq
      have := key_inj (((hs s (by simp)).index e he).1)
        (((hs s' (List.mem_cons_of_mem _ hs')).index e' he').1) heq
      exact hd3 e he e' (List.mem_flatMap.mpr ⟨s', hs', he'⟩) this
    obtain ⟨c1, i1, h1, h2, h3, h4, h5⟩ := setInterp_spec d t s (hs s (by simp)) hd1 i coef hl hi1
    have hi2' : List.Forall₂ (fun s i => SetInv s i c1) sets idx := by
      have : List.Forall₂ (fun s i => s ∈ sets ∧ SetInv s i coef) sets idx := by
        rw [List.forall₂_iff_get] at hi2 ⊢
        exact ⟨hi2.1, fun j ha hb => ⟨List.get_mem _ _, hi2.2 j ha hb⟩⟩
      refine this.imp (fun s' j ⟨hmem, h⟩ => h.congr (fun e' he' => h5 _ _ (fun e he => ?_)))
      exact hdis e he s' hmem e' he'
    obtain ⟨c2, idx2, g1, g2, g3, g4, g5⟩ := ih idx c1
      (fun x hx => hs x (List.mem_cons_of_mem _ hx)) hd2 (by rw [h2]; exact hl) hi2'
    have hkeep : ∀ e ∈ s.cm, cell c2 (key e).1 (key e).2 = cell c1 (key e).1 (key e).2 :=
      fun e he => g5 _ _ (fun s' hs' e' he' => (hdis e he s' hs' e' he').symm)
    refine ⟨c2, i1 :: idx2, by simp [coeffInterp, h1, g1], by rw [g2, h2],
      .cons (h3.congr hkeep) g3, ?_, ?_⟩
    · intro x hx
      rcases List.mem_cons.mp hx with rfl | hx
      · exact h4.congr hkeep
      · exact g4 x hx
    · intro r c hrc
      rw [g5 r c (fun s' hs' => hrc s' (List.mem_cons_of_mem _ hs')), h5 r c (hrc s (by simp))]

/-- The table of the sets at the time `t`. -/
structure TableAt (d : Int) (sets : List (CoefSet K)) (t : X K) (tab : Tab (X K)) : Prop where
  len : tab.length = (coeffSize d).toNat
  vals : ∀ s ∈ sets, SetAt t s tab
  zero : ∀ r c, (∀ s ∈ sets, ∀ e ∈ s.cm, key e ≠ (r, c)) → cell tab r c = .fin 0

structure TSInv (k : Kernel K I P Q R (Tab (X K)) O) (d : Int) (sets : List (CoefSet K))
    (st : TS K P Q R) : Prop where
  len : st.coef.length = (coeffSize d).toNat
  inv : List.Forall₂ (fun s i => SetInv s i st.coef) sets st.idxLast
  zero : ∀ r c, (∀ s ∈ sets, ∀ e ∈ s.cm, key e ≠ (r, c)) → cell st.coef r c = .fin 0
  last : st.timeLast = .nan ∨ ∀ s ∈ sets, SetAt st.timeLast s st.coef
  cache : CacheOk k st.sh

theorem tsItem_ok (k : Kernel K I P Q R (Tab (X K)) O) (d : Int) (sets : List (CoefSet K))
    (hs : ∀ s ∈ sets, SetOk d s) (hd : Disjoint sets) (st : TS K P Q R) (h : TSInv k d sets st)
    (t : X K) (xs : List I) :
    ∃ st' os, tsItem k sets st t xs = some (st', os) ∧ TSInv k d sets st' ∧
      ∃ tab, TableAt d sets t tab ∧ os = xs.map (fun x => direct k x tab) := by
  obtain ⟨hlen, hinv, hzero, hlast, hcache⟩ := h
  unfold tsItem
  cases he : X.eq t st.timeLast with
  | false =>
    obtain ⟨c', idx', h1, h2, h3, h4, h5⟩ := coeffInterp_spec d t sets st.idxLast st.coef hs hd hlen hinv
    obtain ⟨h6, h7⟩ := shevalBatch_ok k (xs.map (fun x => (x, c'))) st.sh hcache
    refine ⟨⟨c', t, idx', (shevalBatch k st.sh (xs.map (fun x => (x, c')))).1⟩, _,
      by simp [h1]; rfl, ?_, c', ?_, ?_⟩
    · exact ⟨by rw [h2]; exact hlen, h3, fun r c hrc => by rw [h5 r c hrc]; exact hzero r c hrc,
        Or.inr h4, h6⟩
    · exact ⟨by rw [h2]; exact hlen, h4, fun r c hrc => by rw [h5 r c hrc]; exact hzero r c hrc⟩
    · rw [h7, List.map_map]; rfl
  | true =>
    obtain ⟨rfl, hn⟩ := X_eq_true he
    obtain ⟨h6, h7⟩ := shevalBatch_ok k (xs.map (fun x => (x, st.coef))) st.sh hcache
    have hl := hlast.resolve_left hn
    refine ⟨⟨st.coef, st.timeLast, st.idxLast, (shevalBatch k st.sh (xs.map (fun x => (x, st.coef)))).1⟩, _,
      by simp; rfl, ?_, st.coef, ⟨hlen, hl, hzero⟩, ?_⟩
    · exact ⟨hlen, hinv, hzero, Or.inr hl, h6⟩
    · rw [h7, List.map_map]; rfl

theorem tsLoop_ok (k : Kernel K I P Q R (Tab (X K)) O) (d : Int) (sets : List (CoefSet K))
    (hs : ∀ s ∈ sets, SetOk d s) (hd : Disjoint sets) (items : List (X K × List I))
    (st : TS K P Q R) (h : TSInv k d sets st) :
    ∃ outs, tsLoop k sets st items = some outs ∧
      List.Forall₂ (fun it os => ∃ tab, TableAt d sets it.1 tab ∧
        os = it.2.map (fun x => direct k x tab)) items outs := by
  induction items generalizing st with
  | nil => exact ⟨[], rfl, .nil⟩
  | cons it items ih =>
    obtain ⟨t, xs⟩ := it
    obtain ⟨st', os, h1, h2, h3⟩ := tsItem_ok k d sets hs hd st h t xs
    obtain ⟨outs, h4, h5⟩ := ih st' h2
    exact ⟨os :: outs, by simp [tsLoop, h1, h4], .cons h3 h5⟩

theorem cm_foldl_max (l : List (Int × Int)) (a : Int) :
    a ≤ l.foldl (fun d e => max d e.1) a ∧ (∀ e ∈ l, e.1 ≤ l.foldl (fun d e => max d e.1) a) ∧
      (l.foldl (fun d e => max d e.1) a = a ∨ ∃ e ∈ l, e.1 = l.foldl (fun d e => max d e.1) a) := by
  induction l generalizing a with
  | nil => simp
  | cons e l ih =>
    obtain ⟨h1, h2, h3⟩ := ih (max a e.1)
    simp only [List.foldl_cons, List.mem_cons, forall_eq_or_imp, exists_eq_or_imp]
    refine ⟨le_trans (le_max_left _ _) h1, ⟨le_trans (le_max_right _ _) h1, h2⟩, ?_⟩
    rcases h3 with h3 | h3
    · rw [h3]
      rcases le_total a e.1 with h | h
      · right; left; rw [max_eq_right h]
      · left; rw [max_eq_left h]
    · right; right; exact h3

theorem sets_foldl_max (l : List (CoefSet K)) (a : Int) :
    a ≤ l.foldl (fun d s => max d (s.cm.foldl (fun d e => max d e.1) 0)) a ∧
      (∀ s ∈ l, s.cm.foldl (fun d e => max d e.1) 0 ≤
        l.foldl (fun d s => max d (s.cm.foldl (fun d e => max d e.1) 0)) a) ∧
      (l.foldl (fun d s => max d (s.cm.foldl (fun d e => max d e.1) 0)) a = a ∨
        ∃ s ∈ l, s.cm.foldl (fun d e => max d e.1) 0 =
          l.foldl (fun d s => max d (s.cm.foldl (fun d e => max d e.1) 0)) a) := by
  induction l generalizing a with
  | nil => simp
  | cons s l ih =>
    obtain ⟨h1, h2, h3⟩ := ih (max a (s.cm.foldl (fun d e => max d e.1) 0))
    simp only [List.foldl_cons, List.mem_cons, forall_eq_or_imp, exists_eq_or_imp]
    refine ⟨le_trans (le_max_left _ _) h1, ⟨le_trans (le_max_right _ _) h1, h2⟩, ?_⟩
    rcases h3 with h3 | h3
    · rw [h3]
      rcases le_total a (s.cm.foldl (fun d e => max d e.1) 0) with h | h
      · right; left; rw [max_eq_right h]
      · left; rw [max_eq_left h]
    · right; right; exact h3

theorem setsDegree_spec (sets : List (CoefSet K)) :
    0 ≤ setsDegree sets ∧ (∀ s ∈ sets, ∀ e ∈ s.cm, e.1 ≤ setsDegree sets) ∧
      (setsDegree sets = 0 ∨ ∃ s ∈ sets, ∃ e ∈ s.cm, e.1 = setsDegree sets) := by
  obtain ⟨h1, h2, h3⟩ := sets_foldl_max sets 0
  refine ⟨h1, fun s hs e he => le_trans ((cm_foldl_max s.cm 0).2.1 e he) (h2 s hs), ?_⟩
  rcases h3 with h3 | ⟨s, hs, h3⟩
  · left; exact h3
  · rcases (cm_foldl_max s.cm 0).2.2 with h4 | ⟨e, he, h4⟩
    · left; unfold setsDegree; rw [← h3, h4]
    · right; exact ⟨s, hs, e, he, by rw [h4, h3]; rfl⟩

theorem tsInit_inv (k : Kernel K I P Q R (Tab (X K)) O) (sets : List (CoefSet K))
    (sh : Cache K P Q R) (h : CacheOk k sh) : TSInv k (setsDegree sets) sets (tsInit sets sh) := by
  refine ⟨zeros_length _, ?_, fun r c _ => cell_zeros _ r c, Or.inl rfl, h⟩
  unfold tsInit
  simp only
  generalize zeros (X K) (setsDegree sets) = z
  induction sets with
  | nil => exact .nil
  | cons s l ih => exact .cons (fun _ => Or.inl rfl) ih

/-- Tables are determined by the sets and the time. -/
theorem tab_ext {V : Type} [Zero V] (a b : Tab V) (hl : a.length = b.length) (h : SameCells a b) :
    a = b := by
  apply List.ext_getElem hl
  intro r h1 h2
  have e1 := h r false
  have e2 := h r true
  unfold cell at e1 e2
  rw [List.getElem?_eq_getElem h1, List.getElem?_eq_getElem h2] at e1 e2
  exact Prod.ext (by simpa using e1) (by simpa using e2)

theorem mem_zip_of_mem {A B : Type} (l : List A) (l' : List B) (h : l'.length = l.length) (a : A)
    (ha : a ∈ l) : ∃ b, (a, b) ∈ l.zip l' := by
  obtain ⟨i, hi, rfl⟩ := List.getElem_of_mem ha
  refine ⟨l'[i]'(by omega), ?_⟩
  have : (l.zip l')[i]'(by simp; omega) = (l[i], l'[i]'(by omega)) := by simp
  rw [← this]
  exact List.getElem_mem _

theorem tableAt_unique (d : Int) (sets : List (CoefSet K)) (hs : ∀ s ∈ sets, SetOk d s) (t : X K)
    (a b : Tab (X K)) (ha : TableAt d sets t a) (hb : TableAt d sets t b) : a = b := by
  apply tab_ext a b (by rw [ha.len, hb.len])
  intro r c
  by_cases h : ∀ s ∈ sets, ∀ e ∈ s.cm, key e ≠ (r, c)
  · rw [ha.zero r c h, hb.zero r c h]
  · push Not at h
    obtain ⟨s, hs', e, he, hk⟩ := h
    obtain ⟨row, hrow⟩ := mem_zip_of_mem s.cm s.cv (hs s hs').len e he
    have h1 := ha.vals s hs' _ hrow
    have h2 := hb.vals s hs' _ hrow
    rw [h1] at h2
    simp only [Res.ok.injEq, hk] at h2
    exact h2

/-! ### array bounds without the disjointness -/

theorem writeSet_bounds (d : Int) (s : CoefSet K) (hs : SetOk d s)
    (value : List (X K) → Option (X K)) (hf : ∀ row ∈ s.cv, value row ≠ none) (coef : Tab (X K))
    (hl : coef.length = (coeffSize d).toNat) :
    ∃ coef', writeSet value s coef = some coef' ∧ coef'.length = (coeffSize d).toNat := by
  unfold writeSet
  have hmem : ∀ e ∈ s.cm.zip s.cv, e.1 ∈ s.cm ∧ e.2 ∈ s.cv := fun e he =>
    ⟨(List.of_mem_zip (show (e.1, e.2) ∈ _ from he)).1, (List.of_mem_zip (show (e.1, e.2) ∈ _ from he)).2⟩
  revert hmem
  generalize s.cm.zip s.cv = l
  intro hmem
  induction l generalizing coef with
  | nil => exact ⟨coef, rfl, hl⟩
  | cons e l ih =>
    obtain ⟨m1, m2⟩ := hmem e (by simp)
    obtain ⟨v, hv⟩ := Option.ne_none_iff_exists'.mp (hf e.2 m2)
    obtain ⟨h1, h2⟩ := offsetOf_spec e.1.1 e.1.2
    have hlt : (rowIdx e.1.1 e.1.2).toNat < coef.length := by
      rw [hl]; exact key_lt (hs.index e.1 m1)
    obtain ⟨c', hc'⟩ : ∃ c', setItem coef (rowIdx e.1.1 e.1.2) (colIdx e.1.2) v = some c' := by
      unfold setItem; rw [if_pos hlt]; exact ⟨_, rfl⟩
    rw [List.foldlM_cons]
    simp only [hv, h1, h2, hc', Option.bind_eq_bind, Option.bind_some]
    exact ih c' (by rw [(cell_setItem _ _ _ _ _ hc').1]; exact hl)
      (fun x hx => hmem x (List.mem_cons_of_mem _ hx))

theorem setInterp_bounds (d : Int) (t : X K) (s : CoefSet K) (hs : SetOk d s) (i : Int)
    (coef : Tab (X K)) (hl : coef.length = (coeffSize d).toNat) :
    ∃ coef' i', setInterp t s i coef = some (coef', i') ∧ coef'.length = (coeffSize d).toNat := by
  rcases hs.kind with hk | hk
  · have hn : 1 ≤ s.ct.length := by have := hs.nodes; rw [hk] at this; exact this
    obtain ⟨b, hb, hb0, hb1⟩ := basis0 t s.ct hn hs.size
    unfold setInterp
    simp only [hk, setInterp0, hb, Option.bind_eq_bind, Option.bind_some]
    by_cases hie : i = b.i
    · rw [if_pos hie]; exact ⟨coef, i, rfl, hl⟩
    · rw [if_neg hie]
      obtain ⟨c', h1, h2⟩ := writeSet_bounds d s hs (interp0Eval b) (by
        intro row hrow
        have := hs.rows row hrow
        unfold interp0Eval
        rw [rd_eq row b.i hb0 (by omega)]; simp) coef hl
      exact ⟨c', b.i, by simp [h1], h2⟩
  · have hn : 2 ≤ s.ct.length := by have := hs.nodes; rw [hk] at this; exact this
    obtain ⟨b, hb, hb0, hb1, hbb⟩ := basis1 t s.ct hn hs.size
    unfold setInterp
    simp only [hk, setInterp1, hb, Option.bind_eq_bind, Option.bind_some]
    obtain ⟨c', h1, h2⟩ := writeSet_bounds d s hs (interp1Eval b) (by
      intro row hrow
      have := hs.rows row hrow
      have h0 : b.b[0]? = some b.b[0] := List.getElem?_eq_getElem (by omega)
      have h1 : b.b[1]? = some b.b[1] := List.getElem?_eq_getElem (by omega)
      unfold interp1Eval
      rw [rd_eq row b.i hb0 (by omega), rd_eq row (b.i + 1) (by omega) (by omega), h0, h1]
      simp) coef hl
    exact ⟨c', i, by simp [h1], h2⟩

theorem coeffInterp_bounds (d : Int) (t : X K) (sets : List (CoefSet K)) (idx : List Int)
    (coef : Tab (X K)) (hs : ∀ s ∈ sets, SetOk d s) (hl : coef.length = (coeffSize d).toNat) :
    ∃ coef' idx', coeffInterp t sets idx coef = some (coef', idx') ∧
      coef'.length = (coeffSize d).toNat := by
  induction sets generalizing idx coef with
  | nil => exact ⟨coef, [], by simp [coeffInterp], hl⟩
  | cons s sets ih =>
    cases idx with
    | nil => exact ⟨coef, [], by simp [coeffInterp], hl⟩
    | cons i idx =>
      obtain ⟨c1, i1, h1, h2⟩ := setInterp_bounds d t s (hs s (by simp)) i coef hl
      obtain ⟨c2, i2, h3, h4⟩ := ih idx c1 (fun x hx => hs x (List.mem_cons_of_mem _ hx)) h2
      exact ⟨c2, i1 :: i2, by simp [coeffInterp, h1, h3], h4⟩

theorem tsLoop_bounds (k : Kernel K I P Q R (Tab (X K)) O) (d : Int) (sets : List (CoefSet K))
    (hs : ∀ s ∈ sets, SetOk d s) (items : List (X K × List I)) (st : TS K P Q R)
    (hl : st.coef.length = (coeffSize d).toNat) : tsLoop k sets st items ≠ none := by
  induction items generalizing st with
  | nil => simp [tsLoop]
  | cons it items ih =>
    obtain ⟨t, xs⟩ := it
    have : ∃ st' os, tsItem k sets st t xs = some (st', os) ∧ st'.coef.length = (coeffSize d).toNat := by
      unfold tsItem
      cases he : X.eq t st.timeLast with
      | false =>
        obtain ⟨c', i', h1, h2⟩ := coeffInterp_bounds d t sets st.idxLast st.coef hs hl
        exact ⟨⟨c', t, i', (shevalBatch k st.sh (xs.map (fun x => (x, c')))).1⟩, _, by simp [h1]; rfl, h2⟩
      | true =>
        exact ⟨⟨st.coef, st.timeLast, st.idxLast,
          (shevalBatch k st.sh (xs.map (fun x => (x, st.coef)))).1⟩, _, by simp; rfl, hl⟩
    obtain ⟨st', os, h1, h2⟩ := this
    obtain ⟨outs, h3⟩ := Option.ne_none_iff_exists'.mp (ih st' h2)
    simp [tsLoop, h1, h3]

section fs
variable {A : Type}

/-- The table of the 2D Fourier series at a pair of times. -/
structure FTableAt (fourier : X K → X K → A → X K) (cm : List (Int × Int)) (ab : List A) (d : Int)
    (t1 t2 : X K) (tab : Tab (X K)) : Prop where
  len : tab.length = (coeffSize d).toNat
  vals : ∀ e ∈ cm.zip ab, cell tab (key e.1).1 (key e.1).2 = fourier t1 t2 e.2
  zero : ∀ r c, (∀ e ∈ cm, key e ≠ (r, c)) → cell tab r c = .fin 0

structure FSInv (k : Kernel K I P Q R (Tab (X K)) O) (fourier : X K → X K → A → X K)
    (cm : List (Int × Int)) (ab : List A) (d : Int) (st : FS K P Q R) : Prop where
  len : st.coef.length = (coeffSize d).toNat
  zero : ∀ r c, (∀ e ∈ cm, key e ≠ (r, c)) → cell st.coef r c = .fin 0
  last : st.time1Last = .nan ∨ st.time2Last = .nan ∨
    FTableAt fourier cm ab d st.time1Last st.time2Last st.coef
  cache : CacheOk k st.sh

theorem fsItem_ok (k : Kernel K I P Q R (Tab (X K)) O) (fourier : X K → X K → A → X K)
    (cm : List (Int × Int)) (ab : List A) (d : Int) (hlen : ab.length = cm.length)
    (hindex : ∀ e ∈ cm, |e.2| ≤ e.1 ∧ e.1 ≤ d) (hnd : cm.Nodup) (st : FS K P Q R)
    (h : FSInv k fourier cm ab d st) (t1 t2 : X K) (xs : List I) :
    ∃ st' os, fsItem k fourier cm ab st t1 t2 xs = some (st', os) ∧ FSInv k fourier cm ab d st' ∧
      ∃ tab, FTableAt fourier cm ab d t1 t2 tab ∧ os = xs.map (fun x => direct k x tab) := by
  obtain ⟨hl, hzero, hlast, hcache⟩ := h
  unfold fsItem
  cases he : (!(X.eq t1 st.time1Last) || !(X.eq t2 st.time2Last)) with
  | true =>
    obtain ⟨c', h1, h2, h3, h4⟩ := write_spec d cm ab hlen hindex hnd
      (fun a => some (fourier t1 t2 a)) (fun a => fourier t1 t2 a) (fun _ _ => rfl) st.coef hl
    have h1' : fsCoeff fourier cm ab t1 t2 st.coef = some c' := h1
    obtain ⟨h6, h7⟩ := shevalBatch_ok k (xs.map (fun x => (x, c'))) st.sh hcache
    have ht : FTableAt fourier cm ab d t1 t2 c' :=
      ⟨by rw [h2]; exact hl, h3, fun r c hrc => by rw [h4 r c hrc]; exact hzero r c hrc⟩
    refine ⟨⟨c', t1, t2, (shevalBatch k st.sh (xs.map (fun x => (x, c')))).1⟩, _,
      by simp [h1']; rfl, ⟨ht.len, ht.zero, Or.inr (Or.inr ht), h6⟩, c', ht, ?_⟩
    rw [h7, List.map_map]; rfl
  | false =>
    simp only [Bool.or_eq_false_iff, Bool.not_eq_false'] at he
    obtain ⟨rfl, hn⟩ := X_eq_true he.1
    obtain ⟨rfl, hn2⟩ := X_eq_true he.2
    obtain ⟨h6, h7⟩ := shevalBatch_ok k (xs.map (fun x => (x, st.coef))) st.sh hcache
    have ht := (hlast.resolve_left hn).resolve_left hn2
    refine ⟨⟨st.coef, st.time1Last, st.time2Last,
      (shevalBatch k st.sh (xs.map (fun x => (x, st.coef)))).1⟩, _,
      by simp; rfl, ⟨hl, hzero, hlast, h6⟩, st.coef, ht, ?_⟩
    rw [h7, List.map_map]; rfl

theorem fsLoop_ok (k : Kernel K I P Q R (Tab (X K)) O) (fourier : X K → X K → A → X K)
    (cm : List (Int × Int)) (ab : List A) (d : Int) (hlen : ab.length = cm.length)
    (hindex : ∀ e ∈ cm, |e.2| ≤ e.1 ∧ e.1 ≤ d) (hnd : cm.Nodup)
    (items : List ((X K × X K) × List I)) (st : FS K P Q R) (h : FSInv k fourier cm ab d st) :
    ∃ outs, fsLoop k fourier cm ab st items = some outs ∧
      List.Forall₂ (fun it os => ∃ tab, FTableAt fourier cm ab d it.1.1 it.1.2 tab ∧
        os = it.2.map (fun x => direct k x tab)) items outs := by
  induction items generalizing st with
  | nil => exact ⟨[], rfl, .nil⟩
  | cons it items ih =>
    obtain ⟨⟨t1, t2⟩, xs⟩ := it
    obtain ⟨st', os, h1, h2, h3⟩ := fsItem_ok k fourier cm ab d hlen hindex hnd st h t1 t2 xs
    obtain ⟨outs, h4, h5⟩ := ih st' h2
    exact ⟨os :: outs, by simp [fsLoop, h1, h4], .cons h3 h5⟩

end fs

end Verif.ShEval
