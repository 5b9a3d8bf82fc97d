/-
Specification of text lines with fields separated by white space, decimal integers and
comments.
-/
import Mathlib.Data.Nat.Notation
import Mathlib.Data.List.Basic

namespace Verif.Spec.Text

/-- ASCII white space: code points 9-13 and 28-32. -/
def White (c : Char) : Prop := (9 ≤ c.toNat ∧ c.toNat ≤ 13) ∨ (28 ≤ c.toNat ∧ c.toNat ≤ 32)

/-- `Fields fs l`: the line `l` consists of the non-empty fields `fs` without white space,
separated by white space, with optional white space (such as the line end) around. -/
inductive Fields : List (List Char) → List Char → Prop
  | blank (w : List Char) : (∀ c ∈ w, White c) → Fields [] w
  | field (w f rest : List Char) (fs : List (List Char)) : (∀ c ∈ w, White c) → f ≠ [] →
      (∀ c ∈ f, ¬ White c) → (∀ c ∈ rest.head?, White c) → Fields fs rest → Fields (f :: fs) (w ++ f ++ rest)

/-- Decimal number: non-empty list of digits. -/
def NatText (s : List Char) (n : Nat) : Prop := s ≠ [] ∧ (∀ c ∈ s, c.isDigit) ∧ n = Nat.ofDigitChars 10 s 0

/-- Decimal integer with an optional sign. -/
def IntText (s : List Char) (z : Int) : Prop :=
  ∃ ds n, NatText ds n ∧ ((s = ds ∧ z = n) ∨ (s = '+' :: ds ∧ z = n) ∨ (s = '-' :: ds ∧ z = -n))

/-- The line holds nothing but white space and a comment. -/
def CommentLine (l : List Char) : Prop :=
  ∃ w c, l = w ++ c ∧ (∀ x ∈ w, White x) ∧ (∀ x ∈ c.head?, x = '#')

/-- The line holds the fields (at least one), possibly followed by a comment. -/
def CommentedFields (fs : List (List Char)) (l : List Char) : Prop :=
  ∃ b c, l = b ++ c ∧ (∀ x ∈ b, x ≠ '#') ∧ Fields fs b ∧ (∀ x ∈ c.head?, x = '#')

end Verif.Spec.Text
