import Verif.Model.Buffer
import Mathlib.Tactic.Linarith

namespace Verif.Buf

variable {A S : Type}

/-- Loop invariant rule. -/
theorem forUp_inv (P : Nat → S → Prop) (f : Nat → S → Option S) (k : Nat) :
    ∀ (a : Nat) (s : S), P a s →
      (∀ i s, a ≤ i → i < a + k → P i s → ∃ s', f i s = some s' ∧ P (i + 1) s') →
      ∃ s', forUp k a f s = some s' ∧ P (a + k) s' := by
  induction k with
  | zero => intro a s h _; exact ⟨s, rfl, h⟩
  | succ k ih =>
    intro a s h step
    obtain ⟨s1, h1, p1⟩ := step a s (le_refl _) (by omega) h
    obtain ⟨s2, h2, p2⟩ := ih (a + 1) s1 p1 (fun i s hi hi' => step i s (by omega) (by omega))
    refine ⟨s2, ?_, by rw [show a + (k + 1) = a + 1 + k by omega]; exact p2⟩
    simp only [forUp, h1, Option.bind_some]; exact h2

theorem forTo_inv (P : Nat → S → Prop) (f : Nat → S → Option S) (a n : Nat) (s : S)
    (han : a ≤ n + 1) (h0 : P a s)
    (step : ∀ i s, a ≤ i → i ≤ n → P i s → ∃ s', f i s = some s' ∧ P (i + 1) s') :
    ∃ s', forTo a n f s = some s' ∧ P (n + 1) s' := by
  obtain ⟨s', h, p⟩ := forUp_inv P f (n + 1 - a) a s h0
    (fun i s hi hi' => step i s hi (by omega))
  exact ⟨s', h, by rw [show a + (n + 1 - a) = n + 1 by omega] at p; exact p⟩

theorem forBelow_inv (P : Nat → S → Prop) (f : Nat → S → Option S) (a n : Nat) (s : S)
    (han : a ≤ n) (h0 : P a s)
    (step : ∀ i s, a ≤ i → i < n → P i s → ∃ s', f i s = some s' ∧ P (i + 1) s') :
    ∃ s', forBelow a n f s = some s' ∧ P n s' := by
  obtain ⟨s', h, p⟩ := forUp_inv P f (n - a) a s h0
    (fun i s hi hi' => step i s hi (by omega))
  exact ⟨s', h, by rw [show a + (n - a) = n by omega] at p; exact p⟩

theorem wr_eq {b : List A} {i : Nat} (v : A) (h : i < b.length) : wr b i v = some (b.set i v) := by
  simp [wr, h]

theorem wr_none {b : List A} {i : Nat} (v : A) (h : b.length ≤ i) : wr b i v = none := by
  simp [wr]; omega

/-- The buffer holds `g j` for all indices satisfying `D`. -/
def Holds (b : List A) (D : Nat → Prop) (g : Nat → A) : Prop :=
  ∀ j, D j → j < b.length ∧ b[j]? = some (g j)

theorem Holds.rd {b : List A} {D : Nat → Prop} {g : Nat → A} (h : Holds b D g) {j : Nat}
    (hj : D j) : rd b j = some (g j) := (h j hj).2

theorem Holds.set {b : List A} {D D' : Nat → Prop} {g : Nat → A} (h : Holds b D g) {i : Nat} {v : A}
    (hi : i < b.length) (hv : v = g i) (hD : ∀ j, D' j → D j ∨ j = i) :
    Holds (b.set i v) D' g := by
  intro j hj
  rw [List.length_set, List.getElem?_set]
  by_cases hji : i = j
  · subst hji; simp [hi, hv]
  · simp only [hji, if_false]
    rcases hD j hj with h1 | h1
    · exact h j h1
    · exact absurd h1.symm hji

theorem Holds.mono {b : List A} {D D' : Nat → Prop} {g : Nat → A} (h : Holds b D g)
    (hD : ∀ j, D' j → D j) : Holds b D' g := fun j hj => h j (hD j hj)

theorem Holds.congr {b : List A} {D : Nat → Prop} {g g' : Nat → A} (h : Holds b D g)
    (hg : ∀ j, D j → g j = g' j) : Holds b D g' := fun j hj => by rw [← hg j hj]; exact h j hj

/-- A buffer with all items known is the table of the function. -/
theorem Holds.eq {b : List A} {g : Nat → A} {n : Nat} (hl : b.length = n)
    (h : Holds b (fun j => j < n) g) : b = (List.range n).map g := by
  apply List.ext_getElem?
  intro j
  by_cases hj : j < n
  · rw [(h j hj).2]; simp [hj]
  · rw [List.getElem?_eq_none (by omega)]; simp [Nat.le_of_not_lt hj]

theorem holds_range (g : Nat → A) (n : Nat) : Holds ((List.range n).map g) (fun j => j < n) g := by
  intro j hj; simp [hj]

end Verif.Buf
