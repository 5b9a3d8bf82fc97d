import Verif.Model.RadPow
import Verif.Lemmas.Buffer
import Mathlib.Algebra.GroupWithZero.Basic
import Mathlib.Algebra.Field.Basic
import Mathlib.Tactic.Ring

namespace Verif.RadPow

open Verif.Buf

variable {K : Type} [Field K]

theorem internal_spec (b : List K) (n : Nat) (x : K) (hb : n < b.length) :
    ∃ b', internal b n x = some b' ∧ b'.length = b.length ∧
      Holds b' (fun j => j ≤ n) (fun j => (1 / x) ^ (j + 2)) := by
  unfold internal
  obtain ⟨s, hs, hP⟩ := forTo_inv
    (fun i (s : List K × K) => s.1.length = b.length ∧
      Holds s.1 (fun j => j < i) (fun j => (1 / x) ^ (j + 2)) ∧ s.2 = (1 / x) ^ (i + 1))
    (fun i s => do
      let last := s.2 * (1 / x)
      let b ← wr s.1 i last
      return (b, last)) 0 n (b, 1 / x) (by omega) ⟨rfl, fun j hj => by omega, by simp⟩
    (by
      rintro i ⟨bb, c⟩ _ hin ⟨hl, hH, he⟩
      replace hl : bb.length = b.length := hl
      replace he : c = (1 / x) ^ (i + 1) := he
      have hc : c * (1 / x) = (1 / x) ^ (i + 2) := by rw [he, ← pow_succ]
      refine ⟨_, by simp only [wr_eq (c * (1 / x)) (show i < bb.length by omega)]; rfl,
        by simpa using hl, ?_, hc⟩
      exact hH.set (show i < bb.length by omega) hc (fun j hj => by omega))
  refine ⟨s.1, ?_, hP.1, hP.2.1.mono (fun j hj => by omega)⟩
  simp only [Option.bind_eq_bind] at hs ⊢
  rw [hs]; rfl

theorem external_spec (b : List K) (n : Nat) (x : K) (hb : n < b.length) :
    ∃ b', external b n x = some b' ∧ b'.length = b.length ∧
      Holds b' (fun j => j ≤ n) (fun j => if j = 0 then 1 / x else x ^ (j - 1)) := by
  unfold external
  have h0 : Holds b (fun _ => False) (fun j => if j = 0 then 1 / x else x ^ (j - 1)) :=
    fun j hj => hj.elim
  have h1 : Holds (b.set 0 (1 / x)) (fun j => j < 1)
      (fun j => if j = 0 then 1 / x else x ^ (j - 1)) :=
    h0.set (by omega) (by simp) (fun j hj => Or.inr (by omega))
  simp only [Option.bind_eq_bind, wr_eq (1 / x) (show 0 < b.length by omega), Option.bind_some]
  by_cases hn : 1 ≤ n
  · rw [if_pos hn, wr_eq _ (by simp; omega)]
    simp only [Option.bind_some]
    have h2 := h1.set (D' := fun j => j < 2) (i := 1) (v := 1) (by simp; omega) (by simp)
      (fun j hj => by omega)
    obtain ⟨s, hs, hP⟩ := forTo_inv
      (fun i (s : List K × K) => s.1.length = b.length ∧
        Holds s.1 (fun j => j < i) (fun j => if j = 0 then 1 / x else x ^ (j - 1)) ∧
        s.2 = x ^ (i - 2))
      (fun i s => (wr s.1 i (s.2 * x)).bind (fun b => pure (b, s.2 * x))) 2 n
      ((b.set 0 (1 / x)).set 1 1, 1) (by omega) ⟨by simp, h2, by simp⟩
      (by
        rintro i ⟨bb, c⟩ hi hin ⟨hl, hH, he⟩
        replace hl : bb.length = b.length := hl
        replace he : c = x ^ (i - 2) := he
        have hc : c * x = x ^ (i - 1) := by
          rw [he, ← pow_succ]; congr 1; omega
        refine ⟨_, by simp only [wr_eq (c * x) (show i < bb.length by omega)]; rfl,
          by simpa using hl, ?_, hc⟩
        exact hH.set (show i < bb.length by omega) (by rw [if_neg (by omega)]; exact hc)
          (fun j hj => by omega))
    exact ⟨s.1, by rw [hs]; rfl, hP.1, hP.2.1.mono (fun j hj => by omega)⟩
  · have : n = 0 := by omega
    subst this
    exact ⟨b.set 0 (1 / x), by simp [forTo, forUp], by simp, h1.mono (fun j hj => by omega)⟩

end Verif.RadPow
