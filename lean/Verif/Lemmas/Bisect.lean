import Verif.Model.Bisect
import Mathlib.Tactic.Common

namespace Verif.Bisect

theorem rd_eq {β : Type*} (v : List β) (i : Int) (h0 : 0 ≤ i) (h1 : i < v.length) :
    rd v i = some (v[i.toNat]'(by omega)) := by
  have : i.toNat < v.length := by omega
  unfold rd
  rw [if_neg (by omega)]
  exact List.getElem?_eq_getElem this

theorem rd_natCast {β : Type*} (v : List β) (j : Nat) (h : j < v.length) :
    rd v (j : Int) = some v[j] := by
  rw [rd_eq v j (by omega) (by omega)]; simp

section general
variable {α : Type*}

/-- The right loop returns an index with `p v[i]` and `¬ p v[i+1]`. -/
theorem loopRight_spec (p : α → Bool) (v : List α) (lo hi : Int)
    (h0 : 0 ≤ lo) (hlh : lo ≤ hi) (hn : hi + 1 < v.length)
    (hlo : ∀ a, rd v lo = some a → p a = true)
    (hhi : ∀ a, rd v (hi + 1) = some a → p a = false) :
    ∃ i, loopRight p v lo hi = some i ∧ lo ≤ i ∧ i ≤ hi ∧
      (∀ a, rd v i = some a → p a = true) ∧
      (∀ a, rd v (i + 1) = some a → p a = false) := by
  unfold loopRight
  by_cases hlt : lo < hi
  · have hi0 : 0 ≤ lo + 1 + (hi - lo) / 2 := by omega
    have hi1 : lo + 1 + (hi - lo) / 2 ≤ hi := by omega
    have hrd := rd_eq v (lo + 1 + (hi - lo) / 2) hi0 (by omega)
    simp only [dif_pos hlt, hrd]
    split
    · rename_i hc
      obtain ⟨i, h1, h2, h3, h4, h5⟩ :=
        loopRight_spec p v (lo + 1 + (hi - lo) / 2) hi hi0 hi1 hn
          (by intro a ha; rw [hrd] at ha; cases ha; exact hc) hhi
      exact ⟨i, h1, by omega, h3, h4, h5⟩
    · rename_i hc
      obtain ⟨i, h1, h2, h3, h4, h5⟩ :=
        loopRight_spec p v lo (lo + 1 + (hi - lo) / 2 - 1) h0 (by omega) (by omega) hlo
          (by intro a ha
              rw [Int.sub_add_cancel, hrd] at ha; cases ha; simpa using hc)
      exact ⟨i, h1, h2, by omega, h4, h5⟩
  · simp only [dif_neg hlt]
    have : lo = hi := by omega
    subst this
    exact ⟨lo, rfl, Int.le_refl _, Int.le_refl _, hlo, hhi⟩
termination_by (hi - lo).toNat
decreasing_by all_goals omega

theorem loopLeft_spec (p : α → Bool) (v : List α) (lo hi : Int)
    (h0 : 0 ≤ lo) (hlh : lo ≤ hi) (hn : hi + 1 < v.length)
    (hlo : ∀ a, rd v lo = some a → p a = false)
    (hhi : ∀ a, rd v (hi + 1) = some a → p a = true) :
    ∃ i, loopLeft p v lo hi = some i ∧ lo ≤ i ∧ i ≤ hi ∧
      (∀ a, rd v i = some a → p a = false) ∧
      (∀ a, rd v (i + 1) = some a → p a = true) := by
  unfold loopLeft
  by_cases hlt : lo < hi
  · have hi0 : 0 ≤ lo + 1 + (hi - lo) / 2 := by omega
    have hi1 : lo + 1 + (hi - lo) / 2 ≤ hi := by omega
    have hrd := rd_eq v (lo + 1 + (hi - lo) / 2) hi0 (by omega)
    simp only [dif_pos hlt, hrd]
    split
    · rename_i hc
      obtain ⟨i, h1, h2, h3, h4, h5⟩ :=
        loopLeft_spec p v lo (lo + 1 + (hi - lo) / 2 - 1) h0 (by omega) (by omega) hlo
          (by intro a ha
              rw [Int.sub_add_cancel, hrd] at ha; cases ha; exact hc)
      exact ⟨i, h1, h2, by omega, h4, h5⟩
    · rename_i hc
      obtain ⟨i, h1, h2, h3, h4, h5⟩ :=
        loopLeft_spec p v (lo + 1 + (hi - lo) / 2) hi hi0 hi1 hn
          (by intro a ha; rw [hrd] at ha; cases ha; simpa using hc) hhi
      exact ⟨i, h1, by omega, h3, h4, h5⟩
  · simp only [dif_neg hlt]
    have : lo = hi := by omega
    subst this
    exact ⟨lo, rfl, Int.le_refl _, Int.le_refl _, hlo, hhi⟩
termination_by (hi - lo).toNat
decreasing_by all_goals omega

/-- The loops never read out of bounds, whatever the nodes are. -/
theorem loopRight_safe (p : α → Bool) (v : List α) (lo hi : Int)
    (h0 : 0 ≤ lo) (hn : hi < v.length) : loopRight p v lo hi ≠ none := by
  unfold loopRight
  by_cases hlt : lo < hi
  · have hrd := rd_eq v (lo + 1 + (hi - lo) / 2) (by omega) (by omega)
    simp only [dif_pos hlt, hrd]
    split
    · exact loopRight_safe p v _ hi (by omega) hn
    · exact loopRight_safe p v lo _ h0 (by omega)
  · simp [dif_neg hlt]
termination_by (hi - lo).toNat
decreasing_by all_goals omega

theorem loopLeft_safe (p : α → Bool) (v : List α) (lo hi : Int)
    (h0 : 0 ≤ lo) (hn : hi < v.length) : loopLeft p v lo hi ≠ none := by
  unfold loopLeft
  by_cases hlt : lo < hi
  · have hrd := rd_eq v (lo + 1 + (hi - lo) / 2) (by omega) (by omega)
    simp only [dif_pos hlt, hrd]
    split
    · exact loopLeft_safe p v lo _ h0 (by omega)
    · exact loopLeft_safe p v _ hi (by omega) hn
  · simp [dif_neg hlt]
termination_by (hi - lo).toNat
decreasing_by all_goals omega

theorem bisectRightP_safe (p : α → Bool) (v : List α) : bisectRightP p v ≠ none := by
  unfold bisectRightP
  by_cases hn : (v.length : Int) < 1
  · simp [hn]
  · rw [if_neg hn, rd_eq v 0 (by omega) (by omega)]
    dsimp only
    split
    · simp
    · rw [rd_eq v _ (by omega) (by omega)]
      dsimp only
      split
      · simp
      · exact loopRight_safe p v 0 _ (by omega) (by omega)

theorem bisectLeftP_safe (p q : α → Bool) (v : List α) : bisectLeftP p q v ≠ none := by
  unfold bisectLeftP
  by_cases hn : (v.length : Int) < 1
  · simp [hn]
  · rw [if_neg hn, rd_eq v 0 (by omega) (by omega)]
    dsimp only
    split
    · simp
    · rw [rd_eq v _ (by omega) (by omega)]
      dsimp only
      split
      · simp
      · exact loopLeft_safe q v 0 _ (by omega) (by omega)

/-- A predicate which, once false along the list, stays false. -/
def Anti (p : α → Bool) (v : List α) : Prop :=
  ∀ (j k : Nat) (hk : k < v.length) (hjk : j ≤ k), p v[k] = true → p (v[j]'(by omega)) = true

/-- Complete description of `bisect_right` on nodes sorted for the comparison. -/
theorem bisectRightP_full (p : α → Bool) (v : List α) (hs : Anti p v) :
    ∃ i : Int, bisectRightP p v = some i ∧ -1 ≤ i ∧ i < v.length ∧
      ∀ (j : Nat) (hj : j < v.length), p v[j] = true ↔ (j : Int) ≤ i := by
  unfold bisectRightP
  by_cases hn : (v.length : Int) < 1
  · refine ⟨-1, by simp [hn], by omega, by omega, ?_⟩
    intro j hj; omega
  · have h0 : rd v 0 = some (v[0]'(by omega)) := by
      simpa using rd_eq v 0 (by omega) (by omega)
    have hl : rd v ((v.length : Int) - 1) = some (v[v.length - 1]'(by omega)) := by
      rw [rd_eq v _ (by omega) (by omega)]
      congr 2; omega
    rw [if_neg hn, h0]
    dsimp only
    by_cases hc0 : p (v[0]'(by omega)) = true
    · rw [hl]
      by_cases hcl : p (v[v.length - 1]'(by omega)) = true
      · refine ⟨(v.length : Int) - 1, by simp [hc0, hcl], by omega, by omega, ?_⟩
        intro j hj
        exact ⟨fun _ => by omega, fun _ => hs j (v.length - 1) (by omega) (by omega) hcl⟩
      · have hlen : 2 ≤ v.length := by
          by_contra hlt
          have h1 : v.length - 1 = 0 := by omega
          apply hcl
          have : v[v.length - 1]'(by omega) = v[0]'(by omega) := by congr 1
          rw [this]; exact hc0
        obtain ⟨i, h1, h2, h3, h4, h5⟩ := loopRight_spec p v 0 ((v.length : Int) - 2)
          (by omega) (by omega) (by omega)
          (by intro a ha; rw [h0] at ha; cases ha; exact hc0)
          (by intro a ha
              rw [show (v.length : Int) - 2 + 1 = v.length - 1 by omega, hl] at ha
              cases ha; simpa using hcl)
        refine ⟨i, by simp [hc0, hcl, h1], by omega, by omega, ?_⟩
        intro j hj
        have c1 := h4 _ (rd_eq v i (by omega) (by omega))
        have c2 := h5 _ (rd_eq v (i + 1) (by omega) (by omega))
        constructor
        · intro hcj
          by_contra hlt
          rw [hs (i+1).toNat j hj (by omega) hcj] at c2
          exact absurd c2 (by simp)
        · intro hji
          exact hs j i.toNat (by omega) (by omega) c1
    · refine ⟨-1, by simp [hc0], by omega, by omega, ?_⟩
      intro j hj
      exact ⟨fun hcj => absurd (hs 0 j hj (by omega) hcj) hc0, fun h => by omega⟩

/-- Complete description of `bisect_left` on nodes sorted for the comparison. -/
theorem bisectLeftP_full (p q : α → Bool) (v : List α) (hs : Anti p v)
    (hq : (∃ a ∈ v, p a = true) → ∀ a ∈ v, q a = !p a) :
    ∃ i : Int, bisectLeftP p q v = some i ∧ -1 ≤ i ∧ i < v.length ∧
      ∀ (j : Nat) (hj : j < v.length), p v[j] = true ↔ (j : Int) ≤ i := by
  unfold bisectLeftP
  by_cases hn : (v.length : Int) < 1
  · refine ⟨-1, by simp [hn], by omega, by omega, ?_⟩
    intro j hj; omega
  · have h0 : rd v 0 = some (v[0]'(by omega)) := by
      simpa using rd_eq v 0 (by omega) (by omega)
    have hl : rd v ((v.length : Int) - 1) = some (v[v.length - 1]'(by omega)) := by
      rw [rd_eq v _ (by omega) (by omega)]
      congr 2; omega
    rw [if_neg hn, h0]
    dsimp only
    by_cases hc0 : p (v[0]'(by omega)) = true
    · rw [hl]
      have hq' := hq ⟨_, List.getElem_mem _, hc0⟩
      by_cases hcl : p (v[v.length - 1]'(by omega)) = true
      · refine ⟨(v.length : Int) - 1, by simp [hc0, hcl], by omega, by omega, ?_⟩
        intro j hj
        exact ⟨fun _ => by omega, fun _ => hs j (v.length - 1) (by omega) (by omega) hcl⟩
      · have hlen : 2 ≤ v.length := by
          by_contra hlt
          have h1 : v.length - 1 = 0 := by omega
          apply hcl
          have : v[v.length - 1]'(by omega) = v[0]'(by omega) := by congr 1
          rw [this]; exact hc0
        obtain ⟨i, h1, h2, h3, h4, h5⟩ := loopLeft_spec q v 0 ((v.length : Int) - 2)
          (by omega) (by omega) (by omega)
          (by intro a ha; rw [h0] at ha; cases ha
              rw [hq' _ (List.getElem_mem _), hc0]; rfl)
          (by intro a ha
              rw [show (v.length : Int) - 2 + 1 = v.length - 1 by omega, hl] at ha
              cases ha; rw [hq' _ (List.getElem_mem _)]; simpa using hcl)
        refine ⟨i, by simp [hc0, hcl, h1], by omega, by omega, ?_⟩
        intro j hj
        have c1 := h4 _ (rd_eq v i (by omega) (by omega))
        have c2 := h5 _ (rd_eq v (i + 1) (by omega) (by omega))
        rw [hq' _ (List.getElem_mem _)] at c1 c2
        constructor
        · intro hcj
          by_contra hlt
          rw [hs (i+1).toNat j hj (by omega) hcj] at c2
          exact absurd c2 (by simp)
        · intro hji
          exact hs j i.toNat (by omega) (by omega) (by simpa using c1)
    · refine ⟨-1, by simp [hc0], by omega, by omega, ?_⟩
      intro j hj
      exact ⟨fun hcj => absurd (hs 0 j hj (by omega) hcj) hc0, fun h => by omega⟩

end general

variable {α : Type*} [LinearOrder α]

theorem cge_mono {x : Option α} {a b : α} (h : a ≤ b) (hb : cge x b = true) : cge x a = true := by
  cases x with
  | none => simp [cge] at hb
  | some y => simp only [cge, decide_eq_true_eq] at *; exact le_trans h hb

theorem cgt_mono {x : Option α} {a b : α} (h : a ≤ b) (hb : cgt x b = true) : cgt x a = true := by
  cases x with
  | none => simp [cgt] at hb
  | some y => simp only [cgt, decide_eq_true_eq] at *; exact lt_of_le_of_lt h hb

theorem sorted_le {v : List α} (hs : v.Pairwise (· ≤ ·)) (j k : Nat) (hk : k < v.length)
    (hjk : j ≤ k) : v[j]'(by omega) ≤ v[k] := by
  rcases Nat.lt_or_ge j k with h | h
  · exact (List.pairwise_iff_getElem.mp hs) j k (by omega) hk h
  · have : j = k := by omega
    subst this; exact le_refl _

theorem bisectRight_full (x : Option α) (v : List α) (hs : v.Pairwise (· ≤ ·)) :
    ∃ i : Int, bisectRight x v = some i ∧ -1 ≤ i ∧ i < v.length ∧
      ∀ (j : Nat) (hj : j < v.length), cge x v[j] = true ↔ (j : Int) ≤ i :=
  bisectRightP_full _ v fun j k hk hjk h => cge_mono (sorted_le hs j k hk hjk) h

theorem bisectLeft_full (x : Option α) (v : List α) (hs : v.Pairwise (· ≤ ·)) :
    ∃ i : Int, bisectLeft x v = some i ∧ -1 ≤ i ∧ i < v.length ∧
      ∀ (j : Nat) (hj : j < v.length), cgt x v[j] = true ↔ (j : Int) ≤ i := by
  refine bisectLeftP_full _ _ v (fun j k hk hjk h => cgt_mono (sorted_le hs j k hk hjk) h) ?_
  rintro ⟨b, _, hb⟩ a _
  cases x with
  | none => simp [cgt] at hb
  | some y =>
    simp only [cle, cgt]
    by_cases h : y ≤ a
    · simp [h]
    · simp [h, not_le.mp h]

end Verif.Bisect
