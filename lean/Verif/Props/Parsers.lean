/-
C44-C46: parsers and loaders of the coefficient files.
-/
import Verif.Lemmas.Text
import Verif.Props.Coefficients
import Mathlib.Data.List.Forall2
import Mathlib.Tactic.FieldSimp

set_option linter.unusedSectionVars false

namespace Verif.Props

open Verif.Parsers Verif.Spec.Text Verif.Coeffs

variable {F : Type}

theorem mapM_forall2 {A B : Type} {f : A → Option B} : ∀ {l : List A} {r : List B}, l.mapM f = some r →
    List.Forall₂ (fun a b => f a = some b) l r
  | [], r, h => by
    cases (by simpa using h : r = [])
    exact .nil
  | a :: l, r, h => by
    rw [List.mapM_cons] at h
    cases ha : f a with
    | none => simp [ha] at h
    | some b =>
      cases hl : l.mapM f with
      | none => simp [ha, hl] at h
      | some bs =>
        simp [ha, hl] at h
        rw [← h]
        exact .cons ha (mapM_forall2 hl)

/-! ### SHC files -/

/-- The fields hold the values. -/
def Values (pf : List Char → Option F) (fs : List (List Char)) (vs : List F) : Prop :=
  List.Forall₂ (fun s v => pf s = some v) fs vs

theorem Values.mapM {pf : List Char → Option F} {fs : List (List Char)} {vs : List F} (h : Values pf fs vs) :
    fs.mapM pf = some vs := by
  induction h with
  | nil => rfl
  | cons h _ ih => rw [List.mapM_cons, h, ih]; rfl

/-- Fields of the first line of an SHC file: five integers, optionally followed by the two limits
of the validity (and anything else). -/
inductive HeaderText (pf : List Char → Option F) : List (List Char) → ShcHeader F → Prop
  | short {a b c d e : List Char} {dmin dmax nt so ns : Int} : IntText a dmin → IntText b dmax → IntText c nt →
      IntText d so → IntText e ns → HeaderText pf [a, b, c, d, e] ⟨dmin, dmax, nt, so, ns, none⟩
  | long {a b c d e f g : List Char} {more : List (List Char)} {dmin dmax nt so ns : Int} {s t : F} :
      IntText a dmin → IntText b dmax → IntText c nt → IntText d so → IntText e ns → pf f = some s →
      pf g = some t → HeaderText pf (a :: b :: c :: d :: e :: f :: g :: more)
        ⟨dmin, dmax, nt, so, ns, some (s, t)⟩

/-- A line of coefficients: degree, order, values. -/
def RowText (pf : List Char → Option F) (l : Line) (row : (Int × Int) × List F) : Prop :=
  ∃ sn sm ss, Fields (sn :: sm :: ss) l ∧ IntText sn row.1.1 ∧ IntText sm row.1.2 ∧ Values pf ss row.2

/-- The text of an SHC file: any number of blank lines and comments, header line, times, rows of
coefficients. -/
structure ShcText (pf : List Char → Option F) (file : List Line) (h : ShcHeader F) (ts : List F)
    (rows : List ((Int × Int) × List F)) : Prop where
  text : ∃ pre hl hfs tl tfs rl, file = pre ++ hl :: tl :: rl ∧ (∀ l ∈ pre, CommentLine l) ∧
    CommentedFields hfs hl ∧ HeaderText pf hfs h ∧ Fields tfs tl ∧ Values pf tfs ts ∧
    List.Forall₂ (RowText pf) rl rows

theorem shcHeaderLine_text {pf : List Char → Option F} {fs : List (List Char)} {h : ShcHeader F}
    (ht : HeaderText pf fs h) {l : Line} (hl : split l = fs) : shcHeaderLine pf l = some h := by
  unfold shcHeaderLine
  rw [hl]
  cases ht with
  | short h1 h2 h3 h4 h5 =>
    simp [parseInt_text h1, parseInt_text h2, parseInt_text h3, parseInt_text h4, parseInt_text h5]
  | long h1 h2 h3 h4 h5 h6 h7 =>
    simp [parseInt_text h1, parseInt_text h2, parseInt_text h3, parseInt_text h4, parseInt_text h5, h6, h7]

theorem coeffRow_text {pf : List Char → Option F} {l : Line} {row : (Int × Int) × List F} (h : RowText pf l row) :
    coeffRow pf (strip l) = some ([row.1.1, row.1.2], row.2) := by
  obtain ⟨sn, sm, ss, hf, hn, hm, hv⟩ := h
  unfold coeffRow
  rw [split_strip, split_fields hf]
  simp [parseInt_text hn, parseInt_text hm, hv.mapM]

theorem coeffRows_mapM {pf : List Char → Option F} {rl : List Line} {rows : List ((Int × Int) × List F)}
    (h : List.Forall₂ (RowText pf) rl rows) :
    (rl.map strip).mapM (coeffRow pf) = some (rows.map (fun r => ([r.1.1, r.1.2], r.2))) := by
  induction h with
  | nil => rfl
  | cons h _ ih => rw [List.map_cons, List.mapM_cons, coeffRow_text h, ih]; rfl

theorem array2_same {A : Type} (rows : List (List A)) (n : Nat) (h : ∀ r ∈ rows, r.length = n) :
    array2 rows = some rows := by
  unfold array2
  rw [if_pos]
  cases rows with
  | nil => rfl
  | cons a l =>
    simp only [List.headD_cons, List.all_eq_true, beq_iff_eq]
    intro r hr
    rw [h r hr, h a (by simp)]

theorem coeffRows_text {pf : List Char → Option F} {rl : List Line} {rows : List ((Int × Int) × List F)}
    (h : List.Forall₂ (RowText pf) rl rows) (n : Nat) (hn : ∀ r ∈ rows, r.2.length = n) :
    coeffRows pf (rl.map strip) = some (rows.map (fun r => [r.1.1, r.1.2]), rows.map Prod.snd) := by
  unfold coeffRows
  rw [coeffRows_mapM h]
  simp only [Option.bind_eq_bind, Option.bind_some, List.map_map]
  rw [array2_same _ 2 (by intro r hr; obtain ⟨x, -, rfl⟩ := List.mem_map.mp hr; rfl), Option.bind_some,
    array2_same _ n (by intro r hr; obtain ⟨x, hx, rfl⟩ := List.mem_map.mp hr; exact hn x hx)]
  rfl

section order
variable [LinearOrder F]

theorem foldl_min_least : ∀ (l : List F) (a : F), IsLeast {x | x = a ∨ x ∈ l} (l.foldl min a)
  | [], a => by constructor <;> simp [lowerBounds]
  | b :: l, a => by
    have ih := foldl_min_least l (min a b)
    rw [List.foldl_cons]
    refine ⟨?_, ?_⟩
    · rcases ih.1 with h | h
      · rw [h]
        rcases min_choice a b with e | e
        · left; exact e
        · right; rw [e]; simp
      · right; exact List.mem_cons_of_mem _ h
    · intro x hx
      have h0 := ih.2 (show min a b ∈ {x | x = min a b ∨ x ∈ l} from .inl rfl)
      rcases hx with rfl | hx
      · exact h0.trans (min_le_left _ _)
      · rcases List.mem_cons.mp hx with rfl | hx
        · exact h0.trans (min_le_right _ _)
        · exact ih.2 (.inr hx)

theorem minTime_least {l : List F} {a : F} (h : minTime l = some a) : IsLeast {x | x ∈ l} a := by
  cases l with
  | nil => cases h
  | cons b l =>
    simp only [minTime, Option.some.injEq] at h
    rw [← h]
    have := foldl_min_least l b
    simpa [List.mem_cons] using this

theorem foldl_max_greatest : ∀ (l : List F) (a : F), IsGreatest {x | x = a ∨ x ∈ l} (l.foldl max a)
  | [], a => by constructor <;> simp [upperBounds]
  | b :: l, a => by
    have ih := foldl_max_greatest l (max a b)
    rw [List.foldl_cons]
    refine ⟨?_, ?_⟩
    · rcases ih.1 with h | h
      · rw [h]
        rcases max_choice a b with e | e
        · left; exact e
        · right; rw [e]; simp
      · right; exact List.mem_cons_of_mem _ h
    · intro x hx
      have h0 := ih.2 (show max a b ∈ {x | x = max a b ∨ x ∈ l} from .inl rfl)
      rcases hx with rfl | hx
      · exact (le_max_left _ _).trans h0
      · rcases List.mem_cons.mp hx with rfl | hx
        · exact (le_max_right _ _).trans h0
        · exact ih.2 (.inr hx)

theorem maxTime_greatest {l : List F} {a : F} (h : maxTime l = some a) : IsGreatest {x | x ∈ l} a := by
  cases l with
  | nil => cases h
  | cons b l =>
    simp only [maxTime, Option.some.injEq] at h
    rw [← h]
    have := foldl_max_greatest l b
    simpa [List.mem_cons] using this

variable [BoundedOrder F]

/-- The validity of SHC files: the one of the header, or from the first to the last time, or
unlimited with a single time. -/
def ShcValidity (given : Option (F × F)) (ts : List F) (vs ve : F) : Prop :=
  (∀ v ∈ given, (vs, ve) = v) ∧
  (given = none → 2 ≤ ts.length → IsLeast {x | x ∈ ts} vs ∧ IsGreatest {x | x ∈ ts} ve) ∧
  (given = none → ts.length ≤ 1 → vs = ⊥ ∧ ve = ⊤)

theorem shcValidity_spec (given : Option (F × F)) (ts : List F) :
    ∃ vs ve, shcValidity given ts = some (vs, ve) ∧ ShcValidity given ts vs ve := by
  cases given with
  | some v =>
    refine ⟨v.1, v.2, rfl, ?_, by simp, by simp⟩
    rintro _ ⟨⟩; rfl
  | none =>
    by_cases h : ts.length > 1
    · obtain ⟨a, l, rfl⟩ : ∃ a l, ts = a :: l := by
        cases ts with
        | nil => simp at h
        | cons a l => exact ⟨a, l, rfl⟩
      refine ⟨l.foldl min a, l.foldl max a, ?_, by simp, ?_, ?_⟩
      · simp only [shcValidity, if_pos h, minTime, maxTime]
        rfl
      · exact fun _ _ => ⟨minTime_least rfl, maxTime_greatest rfl⟩
      · intro _ h'; omega
    · refine ⟨⊥, ⊤, by simp [shcValidity, h], by simp, ?_, fun _ _ => ⟨rfl, rfl⟩⟩
      intro _ h'; omega

/-- **C44**.  An SHC file of any size, with rows of the same number of values, is parsed to
exactly its header, times, index pairs and values; the validity is the one of the header, else
the extent of the times. -/
theorem C44_parse (pf : List Char → Option F) (file : List Line) (h : ShcHeader F) (ts : List F)
    (rows : List ((Int × Int) × List F)) (ht : ShcText pf file h ts rows) (n : Nat)
    (hn : ∀ r ∈ rows, r.2.length = n) :
    ∃ vs ve, parseShc pf file =
      some ⟨h, ts, vs, ve, rows.map (fun r => [r.1.1, r.1.2]), rows.map Prod.snd⟩ ∧
      ShcValidity h.validity ts vs ve := by
  obtain ⟨pre, hl, hfs, tl, tfs, rl, rfl, hpre, hcf, hht, htl, htv, hrows⟩ := ht.text
  obtain ⟨f0, fs0, rfl⟩ : ∃ a l, hfs = a :: l := by cases hht <;> exact ⟨_, _, rfl⟩
  obtain ⟨s, hs, hsplit⟩ := stripComments_header hcf (tl :: rl)
  obtain ⟨vs, ve, hv, hvs⟩ := shcValidity_spec h.validity ts
  refine ⟨vs, ve, ?_, hvs⟩
  unfold parseShc
  rw [stripComments_prelude pre hpre, hs, List.map_cons]
  simp only [shcHeaderLine_text hht hsplit, Option.bind_eq_bind, Option.bind_some]
  have : shcTimes pf (strip tl) = some ts := by
    unfold shcTimes; rw [split_strip, split_fields htl, htv.mapM]
  rw [this, Option.bind_some, hv, Option.bind_some]
  simp only [coeffRows_text hrows n hn, Option.bind_some]
  rfl

/-- **C44**, disagreement: comments and blank lines are ignored only up to the header line; one
blank line (a trailing one, too) among the rows of coefficients makes the file unreadable. -/
theorem C44_blank_line (pf : List Char → Option F) (pre : List Line) (hl tl : Line) (hfs : List (List Char))
    (hpre : ∀ l ∈ pre, CommentLine l) (hcf : CommentedFields hfs hl) (hne : hfs ≠ []) (rl : List Line)
    (hb : ∃ l ∈ rl, Fields [] l) (hr : ∃ l ∈ rl, ¬ Fields [] l) :
    parseShc pf (pre ++ hl :: tl :: rl) = none := by
  obtain ⟨f0, fs0, rfl⟩ := List.exists_cons_of_ne_nil hne
  obtain ⟨s, hs, -⟩ := stripComments_header hcf (tl :: rl)
  have key : coeffRows pf (rl.map strip) = none := by
    unfold coeffRows
    cases hm : (rl.map strip).mapM (coeffRow pf) with
    | none => rfl
    | some rows =>
      simp only [Option.bind_eq_bind, Option.bind_some]
      have hlen : ∀ (a : Line), a ∈ rl → ∃ r ∈ rows, r.1.length = min 2 (split a).length := by
        intro a ha
        obtain ⟨k, hk, rfl⟩ := List.getElem_of_mem ha
        have hf := mapM_forall2 hm
        have hkr : k < rows.length := by rw [← hf.length_eq]; simpa using hk
        have := (List.forall₂_iff_get.mp hf).2 k (by simpa using hk) hkr
        simp only [List.get_eq_getElem, List.getElem_map] at this
        refine ⟨rows[k], List.getElem_mem _, ?_⟩
        unfold coeffRow at this
        rw [split_strip] at this
        cases h1 : ((split rl[k]).take 2).mapM parseInt with
        | none => simp [h1] at this
        | some nm =>
          cases h2 : ((split rl[k]).drop 2).mapM pf with
          | none => simp [h1, h2] at this
          | some gh =>
            simp [h1, h2] at this
            rw [← this]
            have := (mapM_forall2 h1).length_eq
            rw [List.length_take] at this
            exact this.symm
      obtain ⟨a, ha, hab⟩ := hb
      obtain ⟨b, hb, hbb⟩ := hr
      obtain ⟨ra, hra, ea⟩ := hlen a ha
      obtain ⟨rb, hrb, eb⟩ := hlen b hb
      rw [split_fields hab] at ea
      have hsb : 0 < (split b).length := by
        rw [List.length_pos_iff]
        intro e
        exact hbb ((split_iff [] b).mp e)
      have : array2 (rows.map Prod.fst) = none := by
        unfold array2
        rw [if_neg]
        intro hall
        rw [List.all_eq_true] at hall
        have h1 := hall ra.1 (List.mem_map_of_mem hra)
        have h2 := hall rb.1 (List.mem_map_of_mem hrb)
        simp only [beq_iff_eq] at h1 h2
        rw [List.length_nil, Nat.min_zero] at ea
        omega
      rw [this]
      rfl
  unfold parseShc
  rw [stripComments_prelude pre hpre, hs, List.map_cons]
  simp only [key, Option.bind_eq_bind, Option.bind_none]
  cases shcHeaderLine pf s with
  | none => rfl
  | some hd =>
    simp only [Option.bind_some]
    cases shcTimes pf (strip tl) with
    | none => rfl
    | some t =>
      simp only [Option.bind_some]
      cases shcValidity hd.validity t with
      | none => rfl
      | some v => rfl

end order

/-! ### Evaluation of loaded coefficients -/

section eval
variable {K : Type} [Field K] [LinearOrder K] [IsStrictOrderedRing K]

open Verif.Interp Verif.Spec

/-- Row of the dense table of a degree and order. -/
def place (n m : Int) : Nat := (n * (n + 1) / 2 + |m|).toNat

/-- The table evaluated from a time series: values on the lines through the neighbouring nodes, zero
elsewhere. -/
theorem timeDep_table (nm : List (Int × Int)) (rows : List (List K)) (ts : List K) (hnd : ts.Nodup)
    (hl : nm.length = rows.length) (hr : ∀ row ∈ rows, row.length = ts.length) (hn : ts.length < 2 ^ 64)
    (h2 : 2 ≤ ts.length) (hne : nm ≠ []) (hv : ∀ e ∈ nm, |e.2| ≤ e.1) (hndm : nm.Nodup) :
    ∃ td, mkTimeDep nm (rows.map (·.map X.fin)) (ts.map X.fin) 2 = some td ∧
      ∀ (conv : X K → X K) (t : X K) (a : K), conv t = .fin a → ∀ j k (hs : Segment ts a j k),
      ∃ tab d, callSingle td conv (-1) (-1) t = some (tab, d) ∧
        (∀ (i : Nat) (hi : i < nm.length), cell tab (place nm[i].1 nm[i].2) (decide (nm[i].2 < 0)) =
          .fin (line (ts[j]'hs.hj) ((rows[i]'(hl ▸ hi))[j]'((hr _ (List.getElem_mem _)) ▸ hs.hj))
            (ts[k]'hs.hk) ((rows[i]'(hl ▸ hi))[k]'((hr _ (List.getElem_mem _)) ▸ hs.hk)) a)) ∧
        (∀ (r : Nat) c, (∀ e ∈ nm, ¬ (r = place e.1 e.2 ∧ c = decide (e.2 < 0))) → cell tab r c = .fin 0) := by
  have hmk := mkTimeDep_fin nm rows ts hnd hl hr 2 .c1 (Or.inr ⟨rfl, rfl⟩)
  refine ⟨_, hmk, ?_⟩
  intro conv t a hconv j k hs
  set td : TimeDep K := ⟨(sortT ts).map X.fin, nm.zip (rows.map (fun row => (sortC ts row).map X.fin)), .c1⟩ with htd
  have hfst : td.entries.map Prod.fst = nm := by
    rw [htd]; exact List.map_fst_zip (by simp [hl])
  let val : List (X K) → X K := fun c =>
    match interp .c1 true (conv t) ((sortT ts).map X.fin) c with
    | .ok x => x
    | _ => .nan
  have hser : ∀ row ∈ rows, ∃ x, interp .c1 true (conv t) ((sortT ts).map X.fin) ((sortC ts row).map X.fin) = .ok x := by
    intro row hrow
    exact ⟨_, by rw [hconv]; exact C12_series ts row hnd (hr _ hrow) hn a j k hs⟩
  have hval : ∀ e ∈ td.entries, interp td.kind true (conv t) td.times e.2 = .ok (val e.2) := by
    intro e he
    have he2 : e.2 ∈ rows.map (fun row => (sortC ts row).map X.fin) := (List.of_mem_zip he).2
    obtain ⟨row, hrow, hrow'⟩ := List.mem_map.mp he2
    obtain ⟨x, hx⟩ := hser row hrow
    rw [hrow'] at hx
    show interp .c1 true (conv t) ((sortT ts).map X.fin) e.2 = _
    simp only [val, hx]
  have hne' : td.entries ≠ [] := by
    intro h; rw [h] at hfst; exact hne hfst.symm
  have hmemnm : ∀ e ∈ td.entries, e.1 ∈ nm := by
    intro e he; rw [← hfst]; exact List.mem_map_of_mem he
  obtain ⟨tab, h1, -, h3, h4⟩ := C11_evaluated td conv (-1) (-1) t val hne'
    (fun e he => hv _ (hmemnm e he)) (by rw [hfst]; exact hndm) hval
  refine ⟨tab, _, h1, ?_, ?_⟩
  · intro i hi
    have hi' : i < rows.length := hl ▸ hi
    have hmem : ((nm[i].1, nm[i].2), (sortC ts rows[i]).map X.fin) ∈ td.entries := by
      have : ((nm[i].1, nm[i].2), (sortC ts rows[i]).map X.fin) =
          (nm.zip (rows.map (fun row => (sortC ts row).map X.fin)))[i]'(by simp; omega) := by simp
      rw [this]
      exact List.getElem_mem _
    have := h3 _ _ _ hmem (Or.inl (by decide)) (Or.inl (by decide))
    rw [place, this]
    have := C12_series ts rows[i] hnd (hr _ (List.getElem_mem _)) hn a j k hs
    simp only [val, hconv, this]
  · intro r c h
    refine h4 r c (fun n m s hs' _ _ hrc => ?_)
    have hnm := hmemnm _ hs'
    refine h (n, m) hnm ⟨?_, hrc.2⟩
    show r = (n * (n + 1) / 2 + |m|).toNat
    omega

/-- Two nodes five years apart. -/
theorem segment_two (e a : K) : Segment [e, e + 5] a 0 1 := by
  refine ⟨by simp, by simp, by simp, ?_, ?_, ?_⟩
  · intro i hi
    simp only [List.length_cons, List.length_nil] at hi
    interval_cases i <;> simp
  · intro _ i hi
    simp only [List.length_cons, List.length_nil] at hi
    interval_cases i <;> simp
  · intro _ i hi
    simp only [List.length_cons, List.length_nil] at hi
    interval_cases i <;> simp

theorem place_inj {n m n' m' : Int} (h : |m| ≤ n) (h' : |m'| ≤ n') (hp : place n m = place n' m')
    (hc : decide (m < 0) = decide (m' < 0)) : (n, m) = (n', m') := by
  by_contra hne
  have := C10_no_collision n m n' m' h h' hne
  apply this
  have p1 : 0 ≤ n * (n + 1) / 2 + |m| := by
    have := abs_nonneg m
    have : 0 ≤ n * (n + 1) := by nlinarith
    omega
  have p2 : 0 ≤ n' * (n' + 1) / 2 + |m'| := by
    have := abs_nonneg m'
    have : 0 ≤ n' * (n' + 1) := by nlinarith
    omega
  unfold place at hp
  simp only [Prod.mk.injEq, rowIdx, colIdx]
  exact ⟨by omega, hc⟩

/-! ### WMM files -/

/-- A line of WMM coefficients. -/
def WmmText (pf : List Char → Option K) (l : Line) (r : WmmRow K) : Prop :=
  ∃ sn sm sg sh sdg sdh more, Fields (sn :: sm :: sg :: sh :: sdg :: sdh :: more) l ∧ IntText sn r.n ∧ IntText sm r.m ∧
    pf sg = some r.g ∧ pf sh = some r.h ∧ pf sdg = some r.dg ∧ pf sdh = some r.dh

/-- The end of a WMM file: nothing, or a line of nines followed by anything. -/
def WmmEnd (ls : List Line) : Prop :=
  ls = [] ∨ ∃ l more f, ls = l :: more ∧ Fields [f] l ∧ f ≠ [] ∧ ∀ c ∈ f, c = '9'

theorem wmmLoop_end (pf : List Char → Option K) {ls : List Line} (h : WmmEnd ls) : wmmLoop pf ls = some [] := by
  rcases h with rfl | ⟨l, more, f, rfl, hf, hne, h9⟩
  · rfl
  · unfold wmmLoop
    have : isTerminator (split l) = true := by
      rw [split_fields hf]
      simp only [isTerminator, Bool.and_eq_true, Bool.not_eq_true', List.all_eq_true, decide_eq_true_eq]
      exact ⟨by simpa using hne, h9⟩
    simp [this]

theorem wmmLoop_rows (pf : List Char → Option K) {ls fin : List Line} {rows : List (WmmRow K)}
    (h : List.Forall₂ (WmmText pf) ls rows) (hf : WmmEnd fin) :
    wmmLoop pf (ls ++ fin) = some (rows.flatMap wmmEntries) := by
  induction h with
  | nil => exact wmmLoop_end pf hf
  | @cons l r ls rows hl _ ih =>
    obtain ⟨sn, sm, sg, sh, sdg, sdh, more, hfl, h1, h2, h3, h4, h5, h6⟩ := hl
    rw [List.cons_append, wmmLoop]
    simp only [split_fields hfl, isTerminator, Bool.false_eq_true, if_false, wmmRow, List.getElem?_cons_zero,
      List.getElem?_cons_succ, Option.bind_eq_bind, Option.bind_some, parseInt_text h1, parseInt_text h2, h3, h4, h5, h6,
      ih, Option.pure_def, List.flatMap_cons]

/-- Indices of the entries of a row. -/
theorem wmmEntries_mem (r : WmmRow K) (e : (Int × Int) × K × K) (h : e ∈ wmmEntries r) :
    (e = ((r.n, r.m), r.g, r.dg) ∧ (r.g ≠ 0 ∨ r.dg ≠ 0)) ∨
      (e = ((r.n, -r.m), r.h, r.dh) ∧ 0 < r.m ∧ (r.h ≠ 0 ∨ r.dh ≠ 0)) := by
  unfold wmmEntries at h
  rw [List.mem_append] at h
  rcases h with h | h
  · split at h
    · rename_i hc
      rw [List.mem_singleton] at h
      exact .inl ⟨h, hc⟩
    · cases h
  · split at h
    · rename_i hc
      rw [List.mem_singleton] at h
      exact .inr ⟨h, hc.1, hc.2⟩
    · cases h

/-- **C45**, WMM.  From the text to the evaluated coefficients: a WMM file of any size with
different index pairs, some non-zero value, and any text after the terminating line is accepted,
and at the decimal year `a` the coefficient `g` of degree `n` and order `m` is
`g + dg (a - epoch)`, at the place of `(n, m)`; the same for `h` at the place of `(n, -m)`;
all else is zero. -/
theorem C45_wmm (pf : List Char → Option K) (hl : Line) (se name ver : List Char) (more : List (List Char)) (epoch : K)
    (hh : Fields (se :: name :: ver :: more) hl) (he : pf se = some epoch) (ls fin : List Line)
    (rows : List (WmmRow K)) (hrows : List.Forall₂ (WmmText pf) ls rows) (hfin : WmmEnd fin)
    (hv : ∀ r ∈ rows, 0 ≤ r.m ∧ r.m ≤ r.n) (hnd : (rows.map (fun r => (r.n, r.m))).Nodup)
    (hz : ∃ r ∈ rows, r.g ≠ 0 ∨ r.dg ≠ 0 ∨ 0 < r.m ∧ (r.h ≠ 0 ∨ r.dh ≠ 0)) :
    ∃ d td, parseWmm pf (hl :: (ls ++ fin)) = some d ∧ d.t = [epoch, epoch + 5] ∧
      mkTimeDep d.nm (d.gh.map (·.map X.fin)) (d.t.map X.fin) 2 = some td ∧
      ∀ (conv : X K → X K) (t : X K) (a : K), conv t = .fin a →
      ∃ tab deg, callSingle td conv (-1) (-1) t = some (tab, deg) ∧
        (∀ r ∈ rows, cell tab (place r.n r.m) false = .fin (r.g + r.dg * (a - epoch)) ∧
          (0 < r.m → cell tab (place r.n r.m) true = .fin (r.h + r.dh * (a - epoch)))) ∧
        ∀ k c, (∀ r ∈ rows, k = place r.n r.m → r.m = 0 ∧ c = true) → cell tab k c = .fin 0 := by
  set es := rows.flatMap wmmEntries with hes
  have hmem : ∀ e ∈ es, ∃ r ∈ rows, (e = ((r.n, r.m), r.g, r.dg) ∧ (r.g ≠ 0 ∨ r.dg ≠ 0)) ∨
      (e = ((r.n, -r.m), r.h, r.dh) ∧ 0 < r.m ∧ (r.h ≠ 0 ∨ r.dh ≠ 0)) := by
    intro e h
    obtain ⟨r, hr, h⟩ := List.mem_flatMap.mp h
    exact ⟨r, hr, wmmEntries_mem r e h⟩
  have hinj : ∀ r ∈ rows, ∀ r' ∈ rows, (r.n, r.m) = (r'.n, r'.m) → r = r' := by
    intro r hr r' hr' h
    exact List.inj_on_of_nodup_map hnd hr hr' h
  have hmem1 : ∀ r ∈ rows, r.g ≠ 0 ∨ r.dg ≠ 0 → ((r.n, r.m), r.g, r.dg) ∈ es := fun r hr h =>
    List.mem_flatMap.mpr ⟨r, hr, by unfold wmmEntries; rw [if_pos h]; simp⟩
  have hmem2 : ∀ r ∈ rows, 0 < r.m → r.h ≠ 0 ∨ r.dh ≠ 0 → ((r.n, -r.m), r.h, r.dh) ∈ es := fun r hr h1 h2 =>
    List.mem_flatMap.mpr ⟨r, hr, List.mem_append_right _ (by
      rw [if_pos (show r.m > 0 ∧ (r.h ≠ 0 ∨ r.dh ≠ 0) from ⟨h1, h2⟩)]; simp)⟩
  have hne : es ≠ [] := by
    obtain ⟨r, hr, h | h | h⟩ := hz
    · exact List.ne_nil_of_mem (hmem1 r hr (.inl h))
    · exact List.ne_nil_of_mem (hmem1 r hr (.inr h))
    · exact List.ne_nil_of_mem (hmem2 r hr h.1 h.2)
  have hnm : (es.map Prod.fst).Nodup := by
    rw [hes, List.map_flatMap, List.nodup_flatMap]
    refine ⟨fun r hr => ?_, ?_⟩
    · unfold wmmEntries
      have := hv r hr
      split <;> split
      · rename_i h1 h2
        simp only [List.cons_append, List.nil_append, List.map_cons, List.map_nil, List.nodup_cons,
          List.mem_singleton, Prod.mk.injEq, List.not_mem_nil, not_false_eq_true, List.nodup_nil, and_true]
        rintro ⟨-, h⟩
        omega
      · simp
      · simp
      · simp
    · have h := List.Nodup.of_map _ hnd
      refine h.imp_of_mem ?_
      intro r r' hr hr' hrr
      simp only [Function.onFun, List.disjoint_left, List.mem_map]
      rintro x ⟨e, h1, rfl⟩ ⟨e', h2, h3⟩
      apply hrr
      apply hinj r hr r' hr'
      have v := hv r hr
      have v' := hv r' hr'
      rcases wmmEntries_mem r e h1 with ⟨rfl, -⟩ | ⟨rfl, h4, -⟩ <;> rcases wmmEntries_mem r' e' h2 with ⟨rfl, -⟩ | ⟨rfl, h5, -⟩ <;>
        simp only [Prod.mk.injEq] at h3 ⊢ <;> omega
  have hval : ∀ e ∈ es.map Prod.fst, |e.2| ≤ e.1 := by
    intro e h
    obtain ⟨x, hx, rfl⟩ := List.mem_map.mp h
    obtain ⟨r, hr, h | h⟩ := hmem x hx
    · rw [h.1]; have := hv r hr; simp only; rw [abs_le]; omega
    · rw [h.1]; have := hv r hr; simp only; rw [abs_le]; omega
  set rws : List (List K) := es.map (fun e => [e.2.1, e.2.1 + e.2.2 * 5]) with hrws
  obtain ⟨td, htd, hev⟩ := timeDep_table (es.map Prod.fst) rws [epoch, epoch + 5] (by simp) (by simp [hrws])
    (by intro row h; rw [hrws] at h; obtain ⟨x, -, rfl⟩ := List.mem_map.mp h; rfl) (by simp) (by simp)
    (by simpa using hne) hval hnm
  refine ⟨⟨epoch, es.map Prod.fst, rws, [epoch, epoch + 5]⟩, td, ?_, rfl, htd, ?_⟩
  · unfold parseWmm
    simp [split_fields hh, he, wmmLoop_rows pf hrows hfin, hne, ← hes, hrws]
  · intro conv t a hconv
    obtain ⟨tab, deg, h1, h2, h3⟩ := hev conv t a hconv 0 1 (segment_two epoch a)
    have hcell : ∀ e ∈ es, cell tab (place e.1.1 e.1.2) (decide (e.1.2 < 0)) = .fin (e.2.1 + e.2.2 * (a - epoch)) := by
      intro e h
      obtain ⟨i, hi, rfl⟩ := List.getElem_of_mem h
      have := h2 i (by simpa using hi)
      simp only [List.getElem_map, hrws, List.getElem_cons_zero, List.getElem_cons_succ, line] at this
      rw [this]
      congr 1
      field_simp
      ring
    have hzero : ∀ n m, |m| ≤ n → (∀ e ∈ es, e.1 ≠ (n, m)) → cell tab (place n m) (decide (m < 0)) = .fin 0 := by
      intro n m hm h
      refine h3 _ _ (fun e he hp => ?_)
      obtain ⟨x, hx, rfl⟩ := List.mem_map.mp he
      exact h x hx (place_inj (hval _ he) hm hp.1.symm hp.2.symm)
    refine ⟨tab, deg, h1, fun r hr => ⟨?_, fun hm => ?_⟩, ?_⟩
    · have v := hv r hr
      have hd : decide (r.m < 0) = false := by simpa using v.1
      by_cases hg : r.g ≠ 0 ∨ r.dg ≠ 0
      · have := hcell ((r.n, r.m), r.g, r.dg) (hmem1 r hr hg)
        rwa [hd] at this
      · have := hzero r.n r.m (by rw [abs_le]; omega) (by
          intro e he
          obtain ⟨r', hr', h | h⟩ := hmem e he
          · intro e'
            rw [h.1] at e'
            rw [hinj r' hr' r hr e'] at h
            exact hg h.2
          · rw [h.1]
            simp only [ne_eq, Prod.mk.injEq]
            omega)
        rw [hd] at this
        rw [this]
        push Not at hg
        simp [hg]
    · have v := hv r hr
      have hd : decide (-r.m < 0) = true := by simpa using hm
      have hp : place r.n (-r.m) = place r.n r.m := by simp [place]
      by_cases hg : r.h ≠ 0 ∨ r.dh ≠ 0
      · have := hcell ((r.n, -r.m), r.h, r.dh) (hmem2 r hr hm hg)
        simp only [hd, hp] at this
        exact this
      · have := hzero r.n (-r.m) (by rw [abs_le]; omega) (by
          intro e he
          obtain ⟨r', hr', h | h⟩ := hmem e he
          · have := hv r' hr'
            rw [h.1]
            simp only [ne_eq, Prod.mk.injEq]
            omega
          · intro e'
            rw [h.1] at e'
            simp only [Prod.mk.injEq] at e'
            rw [hinj r' hr' r hr (by simp only [Prod.mk.injEq]; omega)] at h
            exact hg h.2.2)
        rw [hd, hp] at this
        rw [this]
        push Not at hg
        simp [hg]
    · intro k c hk
      refine h3 k c (fun e he hp => ?_)
      obtain ⟨x, hx, rfl⟩ := List.mem_map.mp he
      obtain ⟨r, hr, h | h⟩ := hmem x hx
      · rw [h.1] at hp
        have v := hv r hr
        have hd : decide (r.m < 0) = false := by simpa using v.1
        have := hk r hr hp.1
        rw [hp.2] at this
        simp only [hd] at this
        exact absurd this.2 (by simp)
      · rw [h.1] at hp
        have hp' : place r.n (-r.m) = place r.n r.m := by simp [place]
        simp only [hp'] at hp
        have := hk r hr hp.1
        omega

/-! ### IGRF files -/

/-- A line of IGRF coefficients: label, degree, order, values; the label `h` marks the
coefficients of negative order. -/
def IgrfText (pf : List Char → Option K) (l : Line) (row : (Int × Int) × List K) : Prop :=
  ∃ label sn sm ss, ∃ m : Int, Fields (label :: sn :: sm :: ss) l ∧ IntText sn row.1.1 ∧ IntText sm m ∧
    row.1.2 = (if label = ['h'] then -m else m) ∧ Values pf ss row.2

theorem igrfRow_text {pf : List Char → Option K} {l : Line} {row : (Int × Int) × List K} (h : IgrfText pf l row) :
    igrfRow pf (strip l) = some row := by
  obtain ⟨label, sn, sm, ss, m, hf, hn, hm, he, hv⟩ := h
  unfold igrfRow
  rw [split_strip, split_fields hf]
  simp only [List.getElem?_cons_zero, List.getElem?_cons_succ, Option.bind_eq_bind, Option.bind_some, parseInt_text hn,
    parseInt_text hm, List.drop_succ_cons, List.drop_zero, hv.mapM, Option.pure_def]
  rw [← he]

theorem igrfRows_mapM {pf : List Char → Option K} {rl : List Line} {rows : List ((Int × Int) × List K)}
    (h : List.Forall₂ (IgrfText pf) rl rows) : (rl.map strip).mapM (igrfRow pf) = some rows := by
  induction h with
  | nil => rfl
  | cons h _ ih => rw [List.map_cons, List.mapM_cons, igrfRow_text h, ih]; rfl

theorem extrapolateRow_append (vs : List K) (v dv : K) : extrapolateRow (vs ++ [v, dv]) = some (vs ++ [v, v + dv * 5]) := by
  unfold extrapolateRow
  simp

/-- Row of values of IGRF: values at the epochs, the last of them, secular variation. -/
structure IgrfRow (K : Type) where
  nm : Int × Int
  vs : List K
  v : K
  dv : K

/-- **C45**, IGRF.  A file of any size with blank lines and comments before the line of labels is
parsed to its epochs and values, with the secular variation turned into a node five years after
the last epoch. -/
theorem C45_igrf (pf : List Char → Option K) (pre : List Line) (hpre : ∀ l ∈ pre, CommentLine l) (ll tl : Line)
    (lfs : List (List Char)) (hlf : CommentedFields lfs ll) (hlne : lfs ≠ []) (a b c x : List Char)
    (tfs : List (List Char)) (htl : Fields (a :: b :: c :: (tfs ++ [x])) tl) (ts : List K) (tlast : K)
    (htv : Values pf tfs (ts ++ [tlast])) (rl : List Line) (rows : List (IgrfRow K)) (hne : rows ≠ [])
    (hrows : List.Forall₂ (IgrfText pf) rl (rows.map (fun r => (r.nm, r.vs ++ [r.v, r.dv]))))
    (hlen : ∀ r ∈ rows, r.vs.length = ts.length) :
    parseIgrf pf (pre ++ ll :: tl :: rl) = some ⟨rows.map IgrfRow.nm,
      rows.map (fun r => r.vs ++ [r.v, r.v + r.dv * 5]), ts ++ [tlast, tlast + 5]⟩ := by
  obtain ⟨f0, fs0, rfl⟩ := List.exists_cons_of_ne_nil hlne
  obtain ⟨s, hs, -⟩ := stripComments_header hlf (tl :: rl)
  have ht : igrfTimes pf (strip tl) = some (ts ++ [tlast, tlast + 5]) := by
    unfold igrfTimes
    rw [split_strip, split_fields htl]
    simp only [List.drop_succ_cons, List.drop_zero, List.dropLast_concat, htv.mapM, Option.bind_eq_bind,
      Option.bind_some, List.getLast?_append, List.getLast?_singleton, Option.some_or, Option.pure_def,
      List.append_assoc, List.cons_append, List.nil_append]
  have hmap : (rows.map (fun r => r.vs ++ [r.v, r.dv])).mapM extrapolateRow =
      some (rows.map (fun r => r.vs ++ [r.v, r.v + r.dv * 5])) := by
    clear hrows hne hlen
    induction rows with
    | nil => rfl
    | cons r l ih => rw [List.map_cons, List.mapM_cons, extrapolateRow_append, ih]; rfl
  unfold parseIgrf
  rw [stripComments_prelude pre hpre, hs, List.map_cons]
  simp only [ht, igrfRows_mapM hrows, Option.bind_eq_bind, Option.bind_some]
  rw [if_neg (by simpa using hne), List.map_map]
  have hsnd : rows.map (Prod.snd ∘ fun r : IgrfRow K => (r.nm, r.vs ++ [r.v, r.dv])) =
      rows.map (fun r => r.vs ++ [r.v, r.dv]) := rfl
  rw [hsnd, array2_same _ (ts.length + 2) (by
    intro r hr
    obtain ⟨y, hy, rfl⟩ := List.mem_map.mp hr
    simp [hlen y hy]), Option.bind_some, hmap, Option.bind_some, List.map_map]
  rfl

/-- **C45**, IGRF after the last epoch: with increasing epochs the evaluated coefficients follow
the secular variation, `v + dv (a - t)`, however late `a` is. -/
theorem C45_igrf_forecast (ts : List K) (tlast : K) (hts : (ts ++ [tlast]).Pairwise (· < ·)) (hn : ts.length + 2 < 2 ^ 64)
    (rows : List (IgrfRow K)) (hne : rows ≠ []) (hlen : ∀ r ∈ rows, r.vs.length = ts.length)
    (hv : ∀ r ∈ rows, |r.nm.2| ≤ r.nm.1) (hnd : (rows.map IgrfRow.nm).Nodup) :
    ∃ td, mkTimeDep (rows.map IgrfRow.nm) ((rows.map (fun r => r.vs ++ [r.v, r.v + r.dv * 5])).map (·.map X.fin))
        ((ts ++ [tlast, tlast + 5]).map X.fin) 2 = some td ∧
      ∀ (conv : X K → X K) (t : X K) (a : K), conv t = .fin a → tlast ≤ a →
      ∃ tab d, callSingle td conv (-1) (-1) t = some (tab, d) ∧
        (∀ r ∈ rows, cell tab (place r.nm.1 r.nm.2) (decide (r.nm.2 < 0)) = .fin (r.v + r.dv * (a - tlast))) ∧
        ∀ k c, (∀ r ∈ rows, ¬ (k = place r.nm.1 r.nm.2 ∧ c = decide (r.nm.2 < 0))) → cell tab k c = .fin 0 := by
  have hlt : ∀ x ∈ ts, x < tlast := by
    intro x hx
    exact (List.pairwise_append.mp hts).2.2 x hx tlast (by simp)
  have hle : ∀ i (hi : i < (ts ++ [tlast, tlast + 5]).length), (ts ++ [tlast, tlast + 5])[i] ≤ tlast ∨
      (ts ++ [tlast, tlast + 5])[i] = tlast + 5 := by
    intro i hi
    have hm := List.getElem_mem hi
    simp only [List.mem_append, List.mem_cons, List.not_mem_nil, or_false] at hm
    rcases hm with h | h | h
    · exact .inl (hlt _ h).le
    · exact .inl h.le
    · exact .inr h
  have e1 : (ts ++ [tlast, tlast + 5])[ts.length]'(by simp) = tlast := by simp
  have e2 : (ts ++ [tlast, tlast + 5])[ts.length + 1]'(by simp) = tlast + 5 := by simp
  obtain ⟨td, htd, hev⟩ := timeDep_table (rows.map IgrfRow.nm) (rows.map (fun r => r.vs ++ [r.v, r.v + r.dv * 5]))
    (ts ++ [tlast, tlast + 5])
    (by
      have h1 := List.pairwise_append.mp hts
      rw [List.nodup_append]
      refine ⟨h1.1.imp (fun h => h.ne), by simp, ?_⟩
      intro x hx y hy
      simp only [List.mem_cons, List.not_mem_nil, or_false] at hy
      have := hlt x hx
      rcases hy with rfl | rfl
      · exact this.ne
      · exact (this.trans (by simp)).ne)
    (by simp) (by intro row h; obtain ⟨r, hr, rfl⟩ := List.mem_map.mp h; simp [hlen r hr]) (by simpa using hn) (by simp)
    (by simpa using hne) (by intro e h; obtain ⟨r, hr, rfl⟩ := List.mem_map.mp h; exact hv r hr) hnd
  refine ⟨td, htd, ?_⟩
  intro conv t a hconv hat
  have hs : Segment (ts ++ [tlast, tlast + 5]) a ts.length (ts.length + 1) := by
    refine ⟨by simp, by simp, by simp, ?_, ?_, ?_⟩
    · intro i hi
      rw [e1, e2]
      exact (hle i hi).imp id (fun h => h.ge)
    · intro h
      rw [e1] at h
      exact absurd hat (not_le.mpr h)
    · intro _ i hi
      rw [e2]
      rcases hle i hi with h | h
      · exact h.trans (by simp)
      · exact h.le
  obtain ⟨tab, d, h1, h2, h3⟩ := hev conv t a hconv _ _ hs
  refine ⟨tab, d, h1, ?_, ?_⟩
  · intro r hr
    obtain ⟨i, hi, rfl⟩ := List.getElem_of_mem hr
    have := h2 i (by simpa using hi)
    have hl := hlen rows[i] (List.getElem_mem _)
    have g1 : (rows[i].vs ++ [rows[i].v, rows[i].v + rows[i].dv * 5])[ts.length]'(by simp [hl]) = rows[i].v := by
      simp [← hl]
    have g2 : (rows[i].vs ++ [rows[i].v, rows[i].v + rows[i].dv * 5])[ts.length + 1]'(by simp [hl]) =
        rows[i].v + rows[i].dv * 5 := by
      simp [← hl]
    simp only [List.getElem_map, e1, e2, g1, g2, line] at this
    rw [this]
    congr 1
    field_simp
    ring
  · intro k c hk
    refine h3 k c (fun e he hp => ?_)
    obtain ⟨r, hr, rfl⟩ := List.mem_map.mp he
    exact hk r hr hp

/-! ### EMM files -/

/-- A line of EMM coefficients. -/
def EmmText (pf : List Char → Option K) (l : Line) (r : (Int × Int) × K × K) : Prop :=
  ∃ sn sm sg sh more, Fields (sn :: sm :: sg :: sh :: more) l ∧ IntText sn r.1.1 ∧ IntText sm r.1.2 ∧
    pf sg = some r.2.1 ∧ pf sh = some r.2.2

/-- Coefficients of a line: `g` under `(n, m)`, `h` under `(n, -m)` for positive orders. -/
def emmCoeffs (r : (Int × Int) × K × K) : List ((Int × Int) × K) :=
  (r.1, r.2.1) :: (if 0 < r.1.2 then [((r.1.1, -r.1.2), r.2.2)] else [])

/-- A line of the EMM header: neither the epoch nor the line of dashes. -/
def EmmOther (l : Line) : Prop :=
  ∃ fs, Fields fs l ∧ (∀ v, fs ≠ ["Epoch:".toList, v]) ∧ ∀ f, fs = [f] → ∃ c ∈ f, c ≠ '-'

theorem emmHeader_other (pf : List Char → Option K) {l : Line} (h : EmmOther l) (rest : List Line) (ep : Option K) :
    emmHeader pf (l :: rest) ep = emmHeader pf rest ep := by
  obtain ⟨fs, hf, h1, h2⟩ := h
  rw [emmHeader]
  simp only [split_fields hf]
  have hd : isDashes fs = false := by
    unfold isDashes
    split
    · rename_i f
      obtain ⟨c, hc, hne⟩ := h2 f rfl
      rw [Bool.and_eq_false_iff]
      right
      rw [List.all_eq_false]
      exact ⟨c, hc, by simpa using hne⟩
    · rfl
  rw [if_neg (by simp [hd])]
  split
  · rename_i k v
    rw [if_neg]
    intro e
    exact h1 v (by rw [e])
  · rfl

theorem emmHeader_others (pf : List Char → Option K) : ∀ (ls : List Line), (∀ l ∈ ls, EmmOther l) →
    ∀ (rest : List Line) (ep : Option K), emmHeader pf (ls ++ rest) ep = emmHeader pf rest ep
  | [], _, _, _ => rfl
  | l :: ls, h, rest, ep => by
    rw [List.cons_append, emmHeader_other pf (h l (by simp)),
      emmHeader_others pf ls (fun x hx => h x (by simp [hx]))]

theorem emmRows_mapM {pf : List Char → Option K} {ls : List Line} {rows : List ((Int × Int) × K × K)}
    (h : List.Forall₂ (EmmText pf) ls rows) : ls.mapM (emmRow pf) = some (rows.map emmCoeffs) := by
  induction h with
  | nil => rfl
  | cons h _ ih =>
    obtain ⟨sn, sm, sg, sh, more, hf, h1, h2, h3, h4⟩ := h
    rw [List.mapM_cons, ih]
    unfold emmRow
    simp [split_fields hf, parseInt_text h1, parseInt_text h2, h3, h4, emmCoeffs]

/-- **C45**, EMM file.  Header lines of any number and content with one line of the epoch, then a
line of dashes, then the coefficients: each value comes out under its index. -/
theorem C45_emm_parse (pf : List Char → Option K) (l1 l2 ls : List Line) (el dl : Line) (x d : List Char) (epoch : K)
    (rows : List ((Int × Int) × K × K)) (h1 : ∀ l ∈ l1, EmmOther l) (h2 : ∀ l ∈ l2, EmmOther l)
    (he : Fields ["Epoch:".toList, x] el) (hx : pf x = some epoch) (hd : Fields [d] dl) (hdne : d ≠ [])
    (hdash : ∀ c ∈ d, c = '-') (hr : List.Forall₂ (EmmText pf) ls rows) (hne : rows ≠ []) :
    parseEmm pf (l1 ++ el :: (l2 ++ dl :: ls)) = some ⟨epoch, rows.flatMap emmCoeffs⟩ := by
  have hds : isDashes [d] = true := by
    simp only [isDashes, Bool.and_eq_true, Bool.not_eq_true', List.all_eq_true, decide_eq_true_eq]
    exact ⟨by simpa using hdne, hdash⟩
  have hhead : emmHeader pf (l1 ++ el :: (l2 ++ dl :: ls)) none = some (some epoch, ls) := by
    rw [emmHeader_others pf l1 h1, emmHeader]
    simp only [split_fields he]
    rw [if_neg (by simp [isDashes]), if_pos trivial, hx]
    simp only [Option.bind_eq_bind, Option.bind_some]
    rw [emmHeader_others pf l2 h2, emmHeader]
    simp only [split_fields hd, hds, if_true]
  have hfl : (rows.map emmCoeffs).flatten = rows.flatMap emmCoeffs := by rw [List.flatMap_def]
  have hnf : rows.flatMap emmCoeffs ≠ [] := by
    obtain ⟨r, l, rfl⟩ := List.exists_cons_of_ne_nil hne
    simp [emmCoeffs]
  unfold parseEmm
  simp only [hhead, Option.bind_eq_bind, Option.bind_some, emmRows_mapM hr, hfl]
  rw [if_neg (by simpa using hnf)]
  rfl

/-- **C45**, EMM, part which holds: the variation added to the static coefficients gives the second
node five years later, the further static coefficients which are not zero are constant. -/
theorem C45_emm_partial (st sv : EmmData K) (head rest : List ((Int × Int) × K)) (hst : st.entries = head ++ rest)
    (hh : head.map Prod.fst = sv.entries.map Prod.fst) (_he : st.epoch = sv.epoch) (hc : ∃ e ∈ rest, e.2 ≠ 0) :
    ∃ m, combineEmm st sv = some m ∧ m.t = [sv.epoch, sv.epoch + 5] ∧
      m.varying.map Prod.fst = sv.entries.map Prod.fst ∧
      (∀ (i : Nat) (h1 : i < head.length) (h2 : i < sv.entries.length),
        m.varying[i]? = some (head[i].1, [head[i].2, head[i].2 + sv.entries[i].2 * 5])) ∧
      m.constant = rest.filter (fun e => decide (e.2 ≠ 0)) := by
  have hlen : head.length = sv.entries.length := by simpa using congrArg List.length hh
  have htake : st.entries.take sv.entries.length = head := by rw [hst, ← hlen, List.take_left]
  have hdrop : st.entries.drop sv.entries.length = rest := by rw [hst, ← hlen, List.drop_left]
  have hnl : ¬ st.entries.length < sv.entries.length := by rw [hst, List.length_append]; omega
  have hne : rest.filter (fun e => decide (e.2 ≠ 0)) ≠ [] := by
    obtain ⟨e, h1, h2⟩ := hc
    exact List.ne_nil_of_mem (List.mem_filter.mpr ⟨h1, by simpa using h2⟩)
  have hfst : ∀ (i : Nat) (h1 : i < head.length) (h2 : i < sv.entries.length), sv.entries[i].1 = head[i].1 := by
    intro i h1 h2
    have := congrArg (fun l => l[i]?) hh
    simp [h1, h2] at this
    exact this.symm
  unfold combineEmm
  simp only [htake, hdrop, if_neg hnl]
  rw [if_neg (by simpa using hne)]
  refine ⟨_, rfl, rfl, ?_, ?_, rfl⟩
  · apply List.ext_getElem?
    intro i
    simp only [List.getElem?_map, List.getElem?_zipWith]
    by_cases hi : i < sv.entries.length
    · simp [hi, hlen]
    · simp [Nat.not_lt.mp hi]
  · intro i h1 h2
    rw [List.getElem?_zipWith, List.getElem?_eq_getElem h1, List.getElem?_eq_getElem h2]
    simp [hfst i h1 h2]

/-- **C45**, EMM, disagreement: sets of different epochs and different indices are not
rejected; any two sets combine as long as there are enough static coefficients. -/
theorem C45_emm_not_rejected (st sv : EmmData K) (hl : sv.entries.length ≤ st.entries.length)
    (hc : ∃ e ∈ st.entries.drop sv.entries.length, e.2 ≠ 0) : ∃ m, combineEmm st sv = some m := by
  have hne : (st.entries.drop sv.entries.length).filter (fun e => decide (e.2 ≠ 0)) ≠ [] := by
    obtain ⟨e, h1, h2⟩ := hc
    exact List.ne_nil_of_mem (List.mem_filter.mpr ⟨h1, by simpa using h2⟩)
  unfold combineEmm
  simp only [if_neg (Nat.not_lt.mpr hl)]
  rw [if_neg (by simpa using hne)]
  exact ⟨_, rfl⟩

/-- The static set of 2015 combined with the variation of 2010 of other coefficients. -/
example : ∃ m, combineEmm (⟨2015, [((1, 0), 1), ((1, 1), 2), ((2, 0), 3)]⟩ : EmmData ℚ) ⟨2010, [((3, 0), 7)]⟩ = some m ∧
    emmIncompatible (⟨2015, [((1, 0), 1), ((1, 1), 2), ((2, 0), 3)]⟩ : EmmData ℚ) ⟨2010, [((3, 0), 7)]⟩ = true :=
  ⟨_, rfl, by decide +kernel⟩

end eval

/-! ### Merging of MMA files -/

section mma
variable [LinearOrder F]

/-- Consecutive sets fit: the same degrees and indices, the second starts when the first has
ended. -/
def Fits (a b : MmaSet F) : Prop :=
  a.degreeMin = b.degreeMin ∧ a.degreeMax = b.degreeMax ∧ a.nm = b.nm ∧ ∀ x ∈ a.t, ∀ y ∈ b.t, x ≤ y

/-- A set of coefficients: times in the increasing order, a row for each index with a value for each
time. -/
structure MmaOk (s : MmaSet F) : Prop where
  nonempty : s.t ≠ []
  sorted : s.t.Pairwise (· ≤ ·)
  rows : s.gh.length = s.nm.length
  cols : ∀ r ∈ s.gh, r.length = s.t.length

/-- Time series of the i-th coefficient. -/
def series (s : MmaSet F) (i : Nat) : List (F × F) := s.t.zip (s.gh.getD i [])

theorem fits_iff {a b : MmaSet F} (ha : MmaOk a) (hb : MmaOk b) :
    (∀ x ∈ a.t, ∀ y ∈ b.t, x ≤ y) ↔ a.t.getLast ha.nonempty ≤ b.t.head hb.nonempty := by
  constructor
  · intro h
    exact h _ (List.getLast_mem _) _ (List.head_mem _)
  · intro h x hx y hy
    have h1 : x ≤ a.t.getLast ha.nonempty := by
      obtain ⟨l, e⟩ : ∃ l, a.t = l ++ [a.t.getLast ha.nonempty] := ⟨_, (List.dropLast_append_getLast _).symm⟩
      have hs := ha.sorted
      rw [e] at hx hs
      rcases List.mem_append.mp hx with hx | hx
      · exact (List.pairwise_append.mp hs).2.2 x hx _ (by simp)
      · rw [List.mem_singleton] at hx; exact hx.le
    have h2 : b.t.head hb.nonempty ≤ y := by
      have hs := hb.sorted
      obtain ⟨c, l, e⟩ := List.exists_cons_of_ne_nil hb.nonempty
      have hh : b.t.head hb.nonempty = c := by simp [e]
      rw [e] at hy hs
      rw [hh]
      rcases List.mem_cons.mp hy with rfl | hy
      · exact le_rfl
      · exact (List.pairwise_cons.mp hs).1 y hy
    exact h1.trans (h.trans h2)

theorem mmaCheck_iff : ∀ (tail : List (MmaSet F)) (head : MmaSet F), (∀ s ∈ head :: tail, MmaOk s) →
    (mmaCheck head tail = some () ↔ List.IsChain Fits (head :: tail))
  | [], head, _ => by simp [mmaCheck]
  | item :: tail, head, h => by
    have ha := h head (by simp)
    have hb := h item (by simp)
    have ih := mmaCheck_iff tail item (fun s hs => h s (by simp [List.mem_cons.mp hs]))
    rw [List.isChain_cons_cons, ← ih]
    have e1 : head.t.getLast? = some (head.t.getLast ha.nonempty) := List.getLast?_eq_some_getLast _
    have e2 : item.t.head? = some (item.t.head hb.nonempty) := List.head?_eq_some_head _
    rw [mmaCheck]
    by_cases c1 : head.degreeMin ≠ item.degreeMin ∨ head.degreeMax ≠ item.degreeMax
    · rw [if_pos c1]
      constructor
      · intro h; cases h
      · rintro ⟨⟨h1, h2, -⟩, -⟩
        exact absurd c1 (by simp [h1, h2])
    · rw [if_neg c1]
      by_cases c2 : head.nm ≠ item.nm
      · rw [if_pos c2]
        constructor
        · intro h; cases h
        · rintro ⟨⟨-, -, h3, -⟩, -⟩
          exact absurd h3 c2
      · rw [if_neg c2]
        simp only [e1, e2, Option.bind_eq_bind, Option.bind_some]
        push Not at c1 c2
        by_cases c3 : head.t.getLast ha.nonempty > item.t.head hb.nonempty
        · rw [if_pos c3]
          constructor
          · intro h; cases h
          · rintro ⟨⟨-, -, -, h4⟩, -⟩
            exact absurd ((fits_iff ha hb).mp h4) (not_le.mpr c3)
        · rw [if_neg c3]
          constructor
          · intro h
            exact ⟨⟨c1.1, c1.2, c2, (fits_iff ha hb).mpr (not_lt.mp c3)⟩, h⟩
          · exact fun h => h.2

theorem concatRows_spec : ∀ (sets : List (MmaSet F)) (n : Nat), sets ≠ [] → (∀ s ∈ sets, MmaOk s) →
    (∀ s ∈ sets, s.gh.length = n) → ∃ r, concatRows (sets.map MmaSet.gh) = some r ∧ r.length = n ∧
      ∀ i < n, (r.getD i []).length = (sets.map MmaSet.t).flatten.length ∧
        (sets.map MmaSet.t).flatten.zip (r.getD i []) = (sets.map (fun s => series s i)).flatten
  | [], _, h, _, _ => absurd rfl h
  | [s], n, _, hok, hn => by
    refine ⟨s.gh, rfl, hn s (by simp), fun i hi => ?_⟩
    have h1 : s.gh.length = n := hn s (by simp)
    have : s.gh.getD i [] ∈ s.gh := by
      rw [List.getD_eq_getElem?_getD, List.getElem?_eq_getElem (by omega), Option.getD_some]; exact List.getElem_mem _
    have hc := (hok s (by simp)).cols _ this
    simp only [List.map_cons, List.map_nil, List.flatten_cons, List.flatten_nil, List.append_nil]
    exact ⟨hc, rfl⟩
  | s :: u :: l, n, _, hok, hn => by
    obtain ⟨r, hr, hrl, hrs⟩ := concatRows_spec (u :: l) n (by simp) (fun x hx => hok x (by simp [List.mem_cons.mp hx]))
      (fun x hx => hn x (by simp [List.mem_cons.mp hx]))
    have h1 : s.gh.length = n := hn s (by simp)
    refine ⟨List.zipWith (· ++ ·) s.gh r, ?_, by simp [h1, hrl], fun i hi => ?_⟩
    · rw [List.map_cons]
      rw [List.map_cons] at hr ⊢
      rw [concatRows, hr]
      · simp [h1, hrl]
      · simp
    · have e : (List.zipWith (· ++ ·) s.gh r).getD i [] = s.gh.getD i [] ++ r.getD i [] := by
        simp only [List.getD_eq_getElem?_getD, List.getElem?_zipWith]
        rw [List.getElem?_eq_getElem (by omega), List.getElem?_eq_getElem (by omega)]
        simp
      have hm : s.gh.getD i [] ∈ s.gh := by
        rw [List.getD_eq_getElem?_getD, List.getElem?_eq_getElem (by omega), Option.getD_some]; exact List.getElem_mem _
      have hc := (hok s (by simp)).cols _ hm
      obtain ⟨g1, g2⟩ := hrs i hi
      rw [e]
      constructor
      · rw [List.length_append, hc, g1, List.map_cons (l := u :: l), List.flatten_cons, List.length_append]
      · rw [List.map_cons, List.flatten_cons, List.zip_append hc.symm, g2, List.map_cons, List.flatten_cons]
        rfl

/-- **C46**.  Merging of any number of MMA sets succeeds exactly if consecutive sets fit (the same
degrees and indices, ordered in time). -/
theorem C46_accepts (sets : List (MmaSet F)) (hne : sets ≠ []) (hok : ∀ s ∈ sets, MmaOk s) :
    (∃ m, mmaMerge sets = some m) ↔ sets.IsChain Fits := by
  obtain ⟨head, tail, rfl⟩ := List.exists_cons_of_ne_nil hne
  rw [← mmaCheck_iff tail head hok]
  unfold mmaMerge
  constructor
  · rintro ⟨m, h⟩
    cases hc : mmaCheck head tail with
    | none => simp [hc] at h
    | some u => rfl
  · intro hc
    have hchain := (mmaCheck_iff tail head hok).mp hc
    have hnm : ∀ s ∈ head :: tail, s.nm = head.nm := by
      have : ∀ (l : List (MmaSet F)) (a : MmaSet F), List.IsChain Fits (a :: l) → ∀ s ∈ a :: l, s.nm = a.nm := by
        intro l
        induction l with
        | nil => intro a _ s hs; rw [List.mem_singleton.mp hs]
        | cons b l ih =>
          intro a h s hs
          rw [List.isChain_cons_cons] at h
          rcases List.mem_cons.mp hs with rfl | hs
          · rfl
          · rw [ih b h.2 s hs, h.1.2.2.1]
      exact this tail head hchain
    obtain ⟨r, hr, -⟩ := concatRows_spec (head :: tail) head.nm.length (by simp) hok
      (fun s hs => by rw [(hok s hs).rows, hnm s hs])
    simp only [hc, hr, Option.bind_eq_bind, Option.bind_some]
    exact ⟨_, rfl⟩

/-- **C46**.  The merged set: the same indices, the times in order, and the time series of each
coefficient is the series of the sets one after another, each value with its own time. -/
theorem C46_merge (sets : List (MmaSet F)) (hok : ∀ s ∈ sets, MmaOk s) (m : MmaSet F)
    (h : mmaMerge sets = some m) :
    MmaOk m ∧ (∀ s ∈ sets, m.nm = s.nm ∧ m.degreeMin = s.degreeMin ∧ m.degreeMax = s.degreeMax) ∧
      m.t = (sets.map MmaSet.t).flatten ∧
      ∀ i < m.nm.length, series m i = (sets.map (fun s => series s i)).flatten := by
  cases sets with
  | nil => cases h
  | cons head tail =>
    have hchain := (C46_accepts (head :: tail) (by simp) hok).mp ⟨m, h⟩
    have hall : ∀ (l : List (MmaSet F)) (a : MmaSet F), List.IsChain Fits (a :: l) → ∀ s ∈ a :: l,
        a.nm = s.nm ∧ a.degreeMin = s.degreeMin ∧ a.degreeMax = s.degreeMax := by
      intro l
      induction l with
      | nil => intro a _ s hs; rw [List.mem_singleton.mp hs]; exact ⟨rfl, rfl, rfl⟩
      | cons b l ih =>
        intro a h s hs
        rw [List.isChain_cons_cons] at h
        rcases List.mem_cons.mp hs with rfl | hs
        · exact ⟨rfl, rfl, rfl⟩
        · obtain ⟨i1, i2, i3⟩ := ih b h.2 s hs
          exact ⟨h.1.2.2.1.trans i1, h.1.1.trans i2, h.1.2.1.trans i3⟩
    have hnm := hall tail head hchain
    obtain ⟨r, hr, hrl, hrs⟩ := concatRows_spec (head :: tail) head.nm.length (by simp) hok
      (fun s hs => by rw [(hok s hs).rows, ← (hnm s hs).1])
    have hc := (mmaCheck_iff tail head hok).mpr hchain
    unfold mmaMerge at h
    simp only [hc, hr, Option.bind_eq_bind, Option.bind_some, Option.pure_def, Option.some.injEq] at h
    subst h
    refine ⟨⟨?_, ?_, hrl, ?_⟩, hnm, rfl, fun i hi => (hrs i hi).2⟩
    · have := (hok head (by simp)).nonempty
      simp [this]
    · have hs : ∀ (l : List (MmaSet F)), (∀ s ∈ l, MmaOk s) → List.IsChain Fits l →
          ((l.map MmaSet.t).flatten).Pairwise (· ≤ ·) := by
        intro l
        induction l with
        | nil => intros; simp
        | cons a l ih =>
          intro hok h
          rw [List.map_cons, List.flatten_cons, List.pairwise_append]
          refine ⟨(hok a (by simp)).sorted, ih (fun s hs => hok s (by simp [hs])) (List.IsChain.tail h), ?_⟩
          intro x hx y hy
          cases l with
          | nil => simp at hy
          | cons b l =>
            rw [List.isChain_cons_cons] at h
            obtain ⟨z, hz⟩ := List.exists_mem_of_ne_nil _ (hok b (by simp)).nonempty
            have hb0 : b.t.head (hok b (by simp)).nonempty ≤ y := by
              have hso := ih (fun s hs => hok s (by simp [List.mem_cons.mp hs])) h.2
              rw [List.map_cons, List.flatten_cons] at hy hso
              obtain ⟨c, l', e⟩ := List.exists_cons_of_ne_nil (hok b (by simp)).nonempty
              have hh : b.t.head (hok b (by simp)).nonempty = c := by simp [e]
              rw [hh]
              rw [e, List.cons_append] at hy hso
              rcases List.mem_cons.mp hy with rfl | hy
              · exact le_rfl
              · exact (List.pairwise_cons.mp hso).1 y hy
            exact (h.1.2.2.2 x hx _ (List.head_mem _)).trans hb0
      exact hs _ hok hchain
    · intro row hrow
      obtain ⟨i, hi, rfl⟩ := List.getElem_of_mem hrow
      have hi' : i < r.length := hi
      have := (hrs i (by omega)).1
      rwa [List.getD_eq_getElem?_getD, List.getElem?_eq_getElem hi', Option.getD_some] at this

end mma

/-- Two sets which fit, the first one ending when the second one starts. -/
example : mmaMerge [(⟨1, 1, [(1, 0), (1, 1)], [0, 1], [[1, 2], [3, 4]]⟩ : MmaSet ℚ),
    ⟨1, 1, [(1, 0), (1, 1)], [1, 2, 3], [[5, 6, 7], [8, 9, 10]]⟩] =
    some ⟨1, 1, [(1, 0), (1, 1)], [0, 1, 1, 2, 3], [[1, 2, 5, 6, 7], [3, 4, 8, 9, 10]]⟩ := by decide +kernel

end Verif.Props
