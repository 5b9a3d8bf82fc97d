/- Lemmas on the text functions of the parsers. -/
import Verif.Model.Parsers
import Verif.Spec.Text
import Mathlib.Data.List.TakeWhile

set_option linter.unusedSectionVars false

namespace Verif.Parsers

open Verif.Spec.Text

theorem isWs_iff (c : Char) : isWs c = true ↔ White c := by
  have key : ∀ d : Char, c = d ↔ c.toNat = d.toNat := fun d =>
    ⟨fun h => by rw [h], fun h => Char.ext (UInt32.toNat_inj.mp h)⟩
  unfold isWs White
  simp only [Bool.or_eq_true, decide_eq_true_eq, key]
  simp only [show (' ' : Char).toNat = 32 from rfl, show ('\t' : Char).toNat = 9 from rfl,
    show ('\n' : Char).toNat = 10 from rfl, show ('\r' : Char).toNat = 13 from rfl,
    show ('\x0b' : Char).toNat = 11 from rfl, show ('\x0c' : Char).toNat = 12 from rfl,
    show ('\x1c' : Char).toNat = 28 from rfl, show ('\x1d' : Char).toNat = 29 from rfl,
    show ('\x1e' : Char).toNat = 30 from rfl, show ('\x1f' : Char).toNat = 31 from rfl]
  omega

theorem isWs_false (c : Char) : isWs c = false ↔ ¬ White c := by
  rw [← isWs_iff]; simp

theorem splitGo_ws : ∀ (w rest : List Char), (∀ c ∈ w, isWs c = true) → splitGo [] (w ++ rest) = splitGo [] rest
  | [], _, _ => rfl
  | c :: w, rest, h => by
    simp only [List.cons_append, splitGo, h c (by simp), if_true, List.isEmpty_nil]
    exact splitGo_ws w rest (fun d hd => h d (by simp [hd]))

theorem splitGo_field : ∀ (f cur rest : List Char), (∀ c ∈ f, isWs c = false) →
    splitGo cur (f ++ rest) = splitGo (f.reverse ++ cur) rest
  | [], _, _, _ => rfl
  | c :: f, cur, rest, h => by
    simp only [List.cons_append, splitGo, h c (by simp), Bool.false_eq_true, if_false]
    rw [splitGo_field f (c :: cur) rest (fun d hd => h d (by simp [hd]))]
    simp

theorem splitGo_end (cur rest : List Char) (hc : cur ≠ []) (hr : ∀ c ∈ rest.head?, isWs c = true) :
    splitGo cur rest = cur.reverse :: splitGo [] rest := by
  have he : cur.isEmpty = false := by simpa using hc
  cases rest with
  | nil => simp [splitGo, he]
  | cons c rest =>
    have := hr c rfl
    simp [splitGo, this, he]

/-- `str.split()` gives the fields. -/
theorem split_fields {fs : List (List Char)} {l : List Char} (h : Fields fs l) : split l = fs := by
  unfold split
  induction h with
  | blank w hw =>
    have := splitGo_ws w [] (fun c hc => (isWs_iff c).mpr (hw c hc))
    rw [List.append_nil] at this
    rw [this]; rfl
  | field w f rest fs hw hf hfw hr _ ih =>
    rw [List.append_assoc, splitGo_ws w _ (fun c hc => (isWs_iff c).mpr (hw c hc)),
      splitGo_field f [] rest (fun c hc => (isWs_false c).mpr (hfw c hc)), splitGo_end _ rest
        (by simpa using hf) (fun c hc => (isWs_iff c).mpr (hr c hc)), ih]
    simp

/-- Each line has fields. -/
theorem fields_exist : ∀ (n : Nat) (l : List Char), l.length ≤ n → ∃ fs, Fields fs l
  | 0, l, h => by
    have : l = [] := List.length_eq_zero_iff.mp (by omega)
    subst this
    exact ⟨[], .blank [] (by simp)⟩
  | n + 1, l, hl => by
    set w := l.takeWhile isWs with hw
    set r := l.dropWhile isWs with hr
    have hwr : w ++ r = l := List.takeWhile_append_dropWhile
    have hww : ∀ c ∈ w, White c := fun c hc => (isWs_iff c).mp (List.mem_takeWhile_imp hc)
    cases hrc : r with
    | nil =>
      rw [hrc, List.append_nil] at hwr
      exact ⟨[], hwr ▸ .blank w hww⟩
    | cons c r' =>
      have hc : isWs c = false := by
        have := List.head?_dropWhile_not isWs l
        rw [← hr, hrc] at this
        simpa using this
      set f := r.takeWhile (fun c => !isWs c) with hf
      set rest := r.dropWhile (fun c => !isWs c) with hrest
      have hfr : f ++ rest = r := List.takeWhile_append_dropWhile
      have hfne : f ≠ [] := by
        rw [hf, hrc, List.takeWhile_cons, hc]
        simp
      have hlen : rest.length ≤ n := by
        have e1 : w.length + r.length = l.length := by rw [← hwr, List.length_append]
        have e2 : f.length + rest.length = r.length := by rw [← hfr, List.length_append]
        have e3 : 0 < f.length := List.length_pos_iff.mpr hfne
        omega
      obtain ⟨fs, h⟩ := fields_exist n rest hlen
      refine ⟨f :: fs, ?_⟩
      rw [← hwr, ← hfr, ← List.append_assoc]
      refine .field w f rest fs hww hfne (fun d hd => ?_) (fun d hd => ?_) h
      · have := List.mem_takeWhile_imp hd
        exact (isWs_false d).mp (by simpa using this)
      · have := List.head?_dropWhile_not (fun c => !isWs c) r
        rw [← hrest] at this
        rw [← isWs_iff]
        cases hh : rest.head? with
        | none => rw [hh] at hd; cases hd
        | some e =>
          rw [hh] at hd this
          cases hd
          simpa using this

theorem split_iff (fs : List (List Char)) (l : List Char) : split l = fs ↔ Fields fs l := by
  refine ⟨fun h => ?_, split_fields⟩
  obtain ⟨fs', h'⟩ := fields_exist l.length l le_rfl
  rwa [← h, split_fields h']

/-! ### strip -/

theorem split_ws_append (w l : List Char) (h : ∀ c ∈ w, isWs c = true) : split (w ++ l) = split l :=
  splitGo_ws w l h

theorem splitGo_append_ws : ∀ (l cur w : List Char), (∀ c ∈ w, isWs c = true) →
    splitGo cur (l ++ w) = splitGo cur l
  | [], cur, w, h => by
    rw [List.nil_append]
    by_cases hc : cur = []
    · subst hc
      have := splitGo_ws w [] h
      rwa [List.append_nil] at this
    · rw [splitGo_end cur w hc (fun c hcw => h c (List.mem_of_mem_head? hcw))]
      have := splitGo_ws w [] h
      rw [List.append_nil] at this
      have he : cur.isEmpty = false := by simpa using hc
      rw [this]
      simp [splitGo, he]
  | c :: l, cur, w, h => by
    simp only [List.cons_append, splitGo]
    rw [splitGo_append_ws l _ w h, splitGo_append_ws l _ w h]

theorem split_strip (l : List Char) : split (strip l) = split l := by
  unfold strip
  set a := l.dropWhile isWs with ha
  have e1 : split l = split a := by
    conv_lhs => rw [← List.takeWhile_append_dropWhile (p := isWs) (l := l)]
    exact split_ws_append _ _ (fun c hc => List.mem_takeWhile_imp hc)
  have e2 : a = (a.reverse.dropWhile isWs).reverse ++ (a.reverse.takeWhile isWs).reverse := by
    rw [← List.reverse_append, List.takeWhile_append_dropWhile, List.reverse_reverse]
  rw [e1]
  conv_rhs => rw [e2]
  unfold split
  rw [splitGo_append_ws]
  intro c hc
  rw [List.mem_reverse] at hc
  exact List.mem_takeWhile_imp hc

theorem strip_ws (w : List Char) (h : ∀ c ∈ w, isWs c = true) : strip w = [] := by
  unfold strip
  rw [List.dropWhile_eq_nil_iff.mpr h]
  rfl

theorem strip_nil_of_split (l : List Char) (h : strip l = []) : split l = [] := by
  rw [← split_strip, h]; rfl

/-! ### integers -/

theorem natGo_digits : ∀ (ds : List Char) (acc : Nat) (b : Bool), (∀ c ∈ ds, c.isDigit = true) →
    (ds ≠ [] ∨ b = true) → natGo acc b ds = some (Nat.ofDigitChars 10 ds acc)
  | [], acc, b, _, h => by
    have : b = true := by simpa using h
    simp [natGo, this]
  | c :: l, acc, b, h, _ => by
    simp only [natGo, h c (by simp), if_true]
    rw [natGo_digits l _ true (fun d hd => h d (by simp [hd])) (.inr rfl), Nat.ofDigitChars_cons]
    congr 2
    rw [Nat.mul_comm]; rfl

theorem parseInt_text {s : List Char} {z : Int} (h : IntText s z) : parseInt s = some z := by
  obtain ⟨ds, n, ⟨hne, hd, hn⟩, h⟩ := h
  have hg : natGo 0 false ds = some n := by rw [natGo_digits ds 0 false hd (.inl hne), hn]
  rcases h with ⟨rfl, rfl⟩ | ⟨rfl, rfl⟩ | ⟨rfl, rfl⟩
  · cases s with
    | nil => exact absurd rfl hne
    | cons c l =>
      have hc := hd c (by simp)
      have h1 : c ≠ '-' := by rintro rfl; exact absurd hc (by decide)
      have h2 : c ≠ '+' := by rintro rfl; exact absurd hc (by decide)
      unfold parseInt
      split
      · rename_i heq; cases heq; exact absurd rfl h1
      · rename_i heq; cases heq; exact absurd rfl h2
      · rw [hg]; rfl
  · simp [parseInt, hg]
  · simp [parseInt, hg]

/-- The usual decimal text of an integer. -/
theorem intText_repr (n : Nat) : IntText (Nat.toDigits 10 n) n ∧ IntText ('-' :: Nat.toDigits 10 n) (-n) := by
  have : NatText (Nat.toDigits 10 n) n :=
    ⟨Nat.toDigits_ne_nil, fun c hc => Nat.isDigit_of_mem_toDigits (by norm_num) (by norm_num) hc,
      (Nat.ofDigitChars_ten_toDigits).symm⟩
  exact ⟨⟨_, n, this, .inl ⟨rfl, rfl⟩⟩, ⟨_, n, this, .inr (.inr ⟨rfl, rfl⟩)⟩⟩

/-! ### comments -/

theorem beforeHash_append (b c : List Char) (hb : ∀ x ∈ b, x ≠ '#') (hc : ∀ x ∈ c.head?, x = '#') :
    beforeHash (b ++ c) = b := by
  unfold beforeHash
  rw [List.takeWhile_append_of_pos (by simpa using hb)]
  cases c with
  | nil => simp
  | cons x c =>
    have := hc x rfl
    simp [this]

theorem hash_not_white : ¬ White '#' := by unfold White; decide

theorem stripComments_comment {l : Line} (h : CommentLine l) (rest : List Line) :
    stripComments (l :: rest) = stripComments rest := by
  obtain ⟨w, c, rfl, hw, hc⟩ := h
  have hb : beforeHash (w ++ c) = w :=
    beforeHash_append w c (fun x hx e => hash_not_white (e ▸ hw x hx)) hc
  simp [stripComments, hb, strip_ws w (fun x hx => (isWs_iff x).mpr (hw x hx))]

theorem stripComments_prelude : ∀ (pre : List Line), (∀ l ∈ pre, CommentLine l) → ∀ rest,
    stripComments (pre ++ rest) = stripComments rest
  | [], _, _ => rfl
  | l :: pre, h, rest => by
    rw [List.cons_append, stripComments_comment (h l (by simp)),
      stripComments_prelude pre (fun x hx => h x (by simp [hx]))]

/-- The first line with fields and the lines after it. -/
theorem stripComments_header {f : List Char} {fs : List (List Char)} {l : Line} (h : CommentedFields (f :: fs) l)
    (rest : List Line) : ∃ s, stripComments (l :: rest) = s :: rest.map strip ∧ split s = f :: fs := by
  obtain ⟨b, c, rfl, hb, hf, hc⟩ := h
  refine ⟨strip b, ?_, by rw [split_strip, split_fields hf]⟩
  have hne : strip b ≠ [] := by
    intro e
    have := strip_nil_of_split b e
    rw [split_fields hf] at this
    cases this
  simp [stripComments, beforeHash_append b c hb hc, hne]

end Verif.Parsers
