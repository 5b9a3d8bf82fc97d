import Verif.Model.Interp
import Verif.Lemmas.Bisect
import Mathlib.Tactic.Ring
import Mathlib.Tactic.FieldSimp
import Mathlib.Tactic.Linarith

set_option linter.unusedSectionVars false
set_option linter.unusedSimpArgs false

namespace Verif.Interp

open Verif.Bisect

section general
variable {K : Type} [Field K] [LinearOrder K]

theorem sizeSub_eq (n k : Nat) (h : k ≤ n) (hn : n < 2 ^ 64) : sizeSub n k = (n : Int) - k := by
  unfold sizeSub
  apply Int.emod_eq_of_lt <;> omega

theorem clip_bounds (v hi : Int) (h : 0 ≤ hi) : 0 ≤ clip v 0 hi ∧ clip v 0 hi ≤ hi := by
  unfold clip; split
  · omega
  · split <;> omega

theorem clip_id (v hi : Int) (h0 : 0 ≤ v) (h : v ≤ hi) : clip v 0 hi = v := by
  unfold clip
  rw [if_neg (by omega), if_neg (by omega)]

theorem clip_low (v hi : Int) (h : v < 0) : clip v 0 hi = 0 := by
  unfold clip; rw [if_pos h]

theorem clip_high (v hi : Int) (h0 : 0 ≤ hi) (h : hi < v) : clip v 0 hi = hi := by
  unfold clip
  rw [if_neg (by omega), if_pos (by omega)]

/-- In-bounds evaluation for any nodes and values. -/
theorem interpPoint_safe (kind : Kind) (e : Bool) (t : X K) (t0 c0 : List (X K))
    (hlen : t0.length = c0.length) (hmin : minNodes kind ≤ t0.length) (hn : t0.length < 2 ^ 64) :
    interpPoint kind e t t0 c0 ≠ none := by
  obtain ⟨i0, hi0⟩ := Option.ne_none_iff_exists'.mp (bisectRightP_safe (fun a => X.le a t) t0)
  unfold interpPoint
  cases kind with
  | c0 =>
    simp only [minNodes] at hmin
    have hl := rd_eq t0 ((t0.length : Int) - 1) (by omega) (by omega)
    have hcb := clip_bounds i0 (sizeSub t0.length 1) (by rw [sizeSub_eq _ _ hmin hn]; omega)
    have hs := sizeSub_eq t0.length 1 hmin hn
    have h1 := rd_eq c0 (clip i0 0 (sizeSub t0.length 1)) hcb.1 (by omega)
    simp only [getBasis, interp0Basis, hi0, hl, Option.bind_eq_bind, Option.bind_some,
      Option.pure_def, evalBasis, interp0Eval, h1]
    split <;> simp
  | c1 =>
    simp only [minNodes] at hmin
    have hl := rd_eq t0 ((t0.length : Int) - 1) (by omega) (by omega)
    have hcb := clip_bounds i0 (sizeSub t0.length 2) (by rw [sizeSub_eq _ _ hmin hn]; omega)
    have hs := sizeSub_eq t0.length 2 hmin hn
    have h1 := rd_eq c0 (clip i0 0 (sizeSub t0.length 2)) hcb.1 (by omega)
    have h2 := rd_eq c0 (clip i0 0 (sizeSub t0.length 2) + 1) (by omega) (by omega)
    have h3 := rd_eq t0 (clip i0 0 (sizeSub t0.length 2)) hcb.1 (by omega)
    have h4 := rd_eq t0 (clip i0 0 (sizeSub t0.length 2) + 1) (by omega) (by omega)
    simp only [getBasis, interp1Basis, hi0, hl, Option.bind_eq_bind, Option.bind_some,
      Option.pure_def, evalBasis, interp1Eval, h1, h2, h3, h4]
    split <;> simp
  | c1d1 =>
    simp only [minNodes] at hmin
    have hl := rd_eq t0 ((t0.length : Int) - 1) (by omega) (by omega)
    have hcb := clip_bounds i0 (sizeSub t0.length 2) (by rw [sizeSub_eq _ _ hmin hn]; omega)
    have hs := sizeSub_eq t0.length 2 hmin hn
    have h1 := rd_eq c0 (clip i0 0 (sizeSub t0.length 2)) hcb.1 (by omega)
    have h2 := rd_eq c0 (clip i0 0 (sizeSub t0.length 2) + 1) (by omega) (by omega)
    have h3 := rd_eq t0 (clip i0 0 (sizeSub t0.length 2)) hcb.1 (by omega)
    have h4 := rd_eq t0 (clip i0 0 (sizeSub t0.length 2) + 1) (by omega) (by omega)
    simp only [getBasis, interp1d1Basis, hi0, hl, Option.bind_eq_bind, Option.bind_some,
      Option.pure_def, evalBasis, interp1Eval, h1, h2, h3, h4]
    split <;> simp

theorem X.le_trans' {a b c : X K} (h1 : X.le a b = true) (h2 : X.le b c = true) :
    X.le a c = true := by
  cases a <;> cases b <;> cases c <;> simp_all [X.le] 
  exact le_trans h1 h2

theorem anti_le (x : X K) (v : List (X K)) (hs : v.Pairwise (fun a b => X.le a b = true)) :
    Anti (fun a => X.le a x) v := by
  intro j k hk hjk h
  rcases Nat.lt_or_ge j k with hlt | hge
  · exact X.le_trans' ((List.pairwise_iff_getElem.mp hs) j k (by omega) hk hlt) h
  · have : j = k := by omega
    subst this; exact h

end general

variable {K : Type} [Field K] [LinearOrder K] [IsStrictOrderedRing K]

/-- Value of the straight line through `(t0,c0)`, `(t1,c1)` in the way the code
computes it. -/
def lineVal (t0 t1 c0 c1 a : K) : K :=
  (1 - (a - t0) / (t1 - t0)) * c0 + (a - t0) / (t1 - t0) * c1

theorem pairwise_map_fin (ts : List K) (hs : ts.Pairwise (· < ·)) :
    (ts.map X.fin).Pairwise (fun a b => X.le a b = true) := by
  rw [List.pairwise_map]
  exact hs.imp (fun h => by simpa [X.le] using le_of_lt h)

theorem lt_of_lt_idx {ts : List K} (hs : ts.Pairwise (· < ·)) (j k : Nat) (hk : k < ts.length)
    (hjk : j < k) : ts[j]'(by omega) < ts[k] :=
  (List.pairwise_iff_getElem.mp hs) j k (by omega) hk hjk

theorem le_of_le_idx {ts : List K} (hs : ts.Pairwise (· < ·)) (j k : Nat) (hk : k < ts.length)
    (hjk : j ≤ k) : ts[j]'(by omega) ≤ ts[k] := by
  rcases Nat.lt_or_ge j k with h | h
  · exact le_of_lt (lt_of_lt_idx hs j k hk h)
  · have : j = k := by omega
    subst this; exact le_refl _

/-- The search over finite nodes. -/
theorem bisect_fin (ts : List K) (hs : ts.Pairwise (· < ·)) (x : X K) :
    ∃ i0 : Int, bisectRightP (fun b => X.le b x) (ts.map X.fin) = some i0 ∧ -1 ≤ i0 ∧
      i0 < ts.length ∧
      ∀ (j : Nat) (hj : j < ts.length), X.le (.fin ts[j]) x = true ↔ (j : Int) ≤ i0 := by
  obtain ⟨i0, h1, h2, h3, h4⟩ := bisectRightP_full _ _ (anti_le x _ (pairwise_map_fin ts hs))
  rw [List.length_map] at h3
  refine ⟨i0, h1, h2, h3, fun j hj => ?_⟩
  have := h4 j (by simpa using hj)
  rwa [List.getElem_map] at this

/-- Evaluation of the linear interpolation once the segment `k` is known. -/
theorem interpPoint_c1_seg (ts cs : List K) (hs : ts.Pairwise (· < ·))
    (hlen : ts.length = cs.length) (hn : ts.length < 2 ^ 64) (e : Bool) (a : K)
    (i0 : Int) (hb : bisectRightP (fun b => X.le b (X.fin a)) (ts.map X.fin) = some i0)
    (k : Nat) (hk : k + 1 < ts.length) (hclip : clip i0 0 ((ts.length : Int) - 2) = k) :
    interpPoint .c1 e (.fin a) (ts.map .fin) (cs.map .fin) =
      some (if e || i0 == (k : Int) || decide (a = ts[ts.length - 1])
        then .fin (lineVal ts[k] ts[k+1] (cs[k]'(by omega)) (cs[k+1]'(by omega)) a) else .nan) := by
  have hsz : sizeSub (ts.map X.fin).length 2 = (ts.length : Int) - 2 := by
    rw [List.length_map]; exact sizeSub_eq _ _ (by omega) hn
  have hmapT : ∀ (j : Nat) (hj : j < ts.length), rd (ts.map X.fin) (j : Int) = some (.fin ts[j]) := by
    intro j hj; rw [rd_natCast _ _ (by simpa using hj)]; simp
  have hmapC : ∀ (j : Nat) (hj : j < cs.length), rd (cs.map X.fin) (j : Int) = some (.fin cs[j]) := by
    intro j hj; rw [rd_natCast _ _ (by simpa using hj)]; simp
  have hl : rd (ts.map X.fin) (((ts.map X.fin).length : Int) - 1)
      = some (.fin (ts[ts.length - 1]'(by omega))) := by
    rw [List.length_map, show ((ts.length : Int) - 1) = ((ts.length - 1 : Nat) : Int) by omega]
    exact hmapT _ _
  have hne : (ts[k+1] - ts[k]) ≠ 0 := by
    have := lt_of_lt_idx hs k (k+1) hk (by omega)
    exact sub_ne_zero.mpr (ne_of_gt this)
  have hk1 : ((k : Int) + 1) = ((k + 1 : Nat) : Int) := by omega
  unfold interpPoint
  simp only [getBasis, interp1Basis, hb, hl, hsz, hclip, Option.bind_eq_bind, Option.bind_some,
    Option.pure_def, evalBasis, interp1Eval, hk1, hmapT k (by omega), hmapT (k+1) hk,
    hmapC k (by omega), hmapC (k+1) (by omega), X.sub, X.neg, X.add, X.div, X.eq]
  have hne' : ts[k+1] + -ts[k] ≠ 0 := by rwa [← sub_eq_add_neg]
  rw [if_neg hne']
  simp only [X.neg, X.add, X.mul, List.getElem?_cons_zero, List.getElem?_cons_succ,
    Option.bind_some]
  unfold lineVal
  split <;> simp [sub_eq_add_neg]

/-- Evaluation of the derivative once the segment `k` is known. -/
theorem interpPoint_c1d1_seg (ts cs : List K) (hs : ts.Pairwise (· < ·))
    (hlen : ts.length = cs.length) (hn : ts.length < 2 ^ 64) (e : Bool) (a : K)
    (i0 : Int) (hb : bisectRightP (fun b => X.le b (X.fin a)) (ts.map X.fin) = some i0)
    (k : Nat) (hk : k + 1 < ts.length) (hclip : clip i0 0 ((ts.length : Int) - 2) = k) :
    interpPoint .c1d1 e (.fin a) (ts.map .fin) (cs.map .fin) =
      some (if e || i0 == (k : Int) || decide (a = ts[ts.length - 1])
        then .fin (-(1 / (ts[k+1] - ts[k])) * (cs[k]'(by omega))
          + 1 / (ts[k+1] - ts[k]) * (cs[k+1]'(by omega))) else .nan) := by
  have hsz : sizeSub (ts.map X.fin).length 2 = (ts.length : Int) - 2 := by
    rw [List.length_map]; exact sizeSub_eq _ _ (by omega) hn
  have hmapT : ∀ (j : Nat) (hj : j < ts.length), rd (ts.map X.fin) (j : Int) = some (.fin ts[j]) := by
    intro j hj; rw [rd_natCast _ _ (by simpa using hj)]; simp
  have hmapC : ∀ (j : Nat) (hj : j < cs.length), rd (cs.map X.fin) (j : Int) = some (.fin cs[j]) := by
    intro j hj; rw [rd_natCast _ _ (by simpa using hj)]; simp
  have hl : rd (ts.map X.fin) (((ts.map X.fin).length : Int) - 1)
      = some (.fin (ts[ts.length - 1]'(by omega))) := by
    rw [List.length_map, show ((ts.length : Int) - 1) = ((ts.length - 1 : Nat) : Int) by omega]
    exact hmapT _ _
  have hne : (ts[k+1] - ts[k]) ≠ 0 := by
    have := lt_of_lt_idx hs k (k+1) hk (by omega)
    exact sub_ne_zero.mpr (ne_of_gt this)
  have hk1 : ((k : Int) + 1) = ((k + 1 : Nat) : Int) := by omega
  unfold interpPoint
  simp only [getBasis, interp1d1Basis, hb, hl, hsz, hclip, Option.bind_eq_bind, Option.bind_some,
    Option.pure_def, evalBasis, interp1Eval, hk1, hmapT k (by omega), hmapT (k+1) hk,
    hmapC k (by omega), hmapC (k+1) (by omega), X.sub, X.neg, X.add, X.div, X.eq]
  have hne' : ts[k+1] + -ts[k] ≠ 0 := by rwa [← sub_eq_add_neg]
  rw [if_neg hne']
  simp only [X.neg, X.add, X.mul, List.getElem?_cons_zero, List.getElem?_cons_succ,
    Option.bind_some]
  split <;> simp [sub_eq_add_neg]

theorem interp_of_point (kind : Kind) (e : Bool) (t : X K) (t0 c0 : List (X K))
    (hlen : t0.length = c0.length) (hmin : minNodes kind ≤ t0.length) (x : X K)
    (h : interpPoint kind e t t0 c0 = some x) : interp kind e t t0 c0 = .ok x := by
  unfold interp
  rw [if_neg (by simpa using hlen), if_neg (by omega), h]

end Verif.Interp
