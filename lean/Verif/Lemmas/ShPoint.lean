import Verif.Model.ShEvalPoint
import Verif.Lemmas.LegendreSpec
import Verif.Lemmas.Fourier
import Verif.Lemmas.RadPow
import Mathlib.Algebra.BigOperators.Ring.Finset

set_option linter.unusedSectionVars false

namespace Verif.ShPoint

open Verif.Buf Verif.Legendre

/-- A loop adding terms to its state is a sum. -/
theorem forTo_sum {M : Type} [AddCommMonoid M] (f : Nat → M) (body : Nat → M → Option M) (n : Nat) (v : M)
    (h : ∀ i v, 1 ≤ i → i ≤ n → body i v = some (v + f i)) :
    forTo 1 n body v = some (v + ∑ i ∈ Finset.range n, f (i + 1)) := by
  obtain ⟨s', e, p⟩ := forTo_inv (fun i s => s = v + ∑ k ∈ Finset.range (i - 1), f (k + 1)) body 1 n v
    (by omega) (by simp)
    (by
      intro i s hi hin hs
      refine ⟨_, h i s hi hin, ?_⟩
      obtain ⟨k, rfl⟩ : ∃ k, i = k + 1 := ⟨i - 1, by omega⟩
      rw [hs, show k + 1 + 1 - 1 = k + 1 from rfl, show k + 1 - 1 = k from rfl, Finset.sum_range_succ,
        add_assoc])
  rw [e, p]; rfl

section sums
variable {K : Type} [Field K] (C L : Nat → K × K) (P D R : Nat → K)

/-- `g cos + h sin` of the degree `i` and order `j`. -/
def ca (i j : Nat) : K := (C (tri i + j)).1 * (L j).1 + (C (tri i + j)).2 * (L j).2

/-- `g sin - h cos` of the degree `i` and order `j`. -/
def cb (i j : Nat) : K := (C (tri i + j)).1 * (L j).2 - (C (tri i + j)).2 * (L j).1

/-- Sum over the orders of one degree, as the code computes it. -/
def vI (i : Nat) : K :=
  (C (tri i)).1 * P (tri i) + ∑ j ∈ Finset.range i, ca C L i (j + 1) * P (tri i + (j + 1))

def aI (i : Nat) : K := ∑ j ∈ Finset.range i, cb C L i (j + 1) * P (tri i + (j + 1)) * ((j + 1 : Nat) : K)

def vSum (N : Nat) : K := (C 0).1 * R 0 + ∑ i ∈ Finset.range N, R (i + 1) * vI C L P (i + 1)

def elSum (N : Nat) : K := ∑ i ∈ Finset.range N, R (i + 1) * vI C L D (i + 1)

def azSum (N : Nat) : K := -∑ i ∈ Finset.range N, R (i + 1) * aI C L P (i + 1)

def rdSum (int : Bool) (N : Nat) : K := -((C 0).1 * R 0) * idr int 0 -
  ∑ i ∈ Finset.range N, R (i + 1) * (vI C L P (i + 1) * idr int (i + 1))

end sums

section programs
variable {K : Type} [Field K]

/-- Contents of the input buffers. -/
structure Ok (N : Nat) (coef lcs : List (K × K)) (lp ldp rrp : List K) (C L : Nat → K × K)
    (P D R : Nat → K) : Prop where
  hc : Holds coef (fun k => k < tri (N + 1)) C
  hl : Holds lcs (fun k => k ≤ N) L
  hp : Holds lp (fun k => k < tri (N + 1)) P
  hd : Holds ldp (fun k => k < tri (N + 1)) D
  hr : Holds rrp (fun k => k ≤ N) R

variable {N : Nat} {coef lcs : List (K × K)} {lp ldp rrp : List K} {C L : Nat → K × K} {P D R : Nat → K}

theorem tri_lt {i j N : Nat} (hj : j ≤ i) (hi : i ≤ N) : tri i + j < tri (N + 1) := by
  have := tri_le (show i + 1 ≤ N + 1 by omega); simp only [tri] at this ⊢; omega

theorem tri_lt' {i N : Nat} (hi : i ≤ N) : tri i < tri (N + 1) := by
  have := tri_lt (j := 0) (Nat.zero_le i) hi; omega

theorem evalV_spec (h : Ok N coef lcs lp ldp rrp C L P D R) (rad : K) :
    evalV N rad coef lcs lp rrp = some (vSum C L P R N * rad) := by
  unfold evalV
  rw [h.hc.rd (j := 0) (tri_lt' (i := 0) (Nat.zero_le N)), h.hr.rd (Nat.zero_le N)]
  simp only [Option.bind_eq_bind, Option.bind_some, tri_half]
  rw [forTo_sum (fun i => R i * vI C L P i)]
  · rfl
  · intro i v hi hiN
    rw [h.hc.rd (tri_lt' hiN), h.hp.rd (tri_lt' hiN)]
    simp only [Option.bind_some]
    rw [forTo_sum (fun j => ca C L i j * P (tri i + j))]
    · simp only [Option.bind_some, h.hr.rd hiN]; rfl
    · intro j w hj hji
      rw [h.hc.rd (tri_lt hji hiN), h.hl.rd (show j ≤ N by omega), h.hp.rd (tri_lt hji hiN)]; rfl

/-- Gradient before the special handling of the poles. -/
def grad0 (C L : Nat → K × K) (P D R : Nat → K) (c : K) (int : Bool) (N : Nat) : Grad K :=
  ⟨elSum C L D R N, azSum C L P R N / c, rdSum C L P R int N⟩

theorem evalDv_spec (h : Ok N coef lcs lp ldp rrp C L P D R) (sin cos sqrt : K → K) (small : K → Bool)
    (elv : K) (int : Bool) :
    evalDv sin cos sqrt small N elv coef lcs lp ldp rrp int =
      fixPole sin cos sqrt small N elv coef lcs rrp (grad0 C L P D R (cos elv) int N) := by
  unfold evalDv
  rw [h.hc.rd (j := 0) (tri_lt' (i := 0) (Nat.zero_le N)), h.hr.rd (Nat.zero_le N)]
  simp only [Option.bind_eq_bind, Option.bind_some, tri_half]
  rw [forTo_sum (M := K × K × K) (fun i => (R i * vI C L D i, -(R i * aI C L P i),
    -(R i * (vI C L P i * idr int i))))]
  · simp only [Option.bind_some]
    congr 1
    unfold grad0 elSum azSum rdSum
    simp only [Prod.fst_add, Prod.snd_add, Prod.fst_sum, Prod.snd_sum, Finset.sum_neg_distrib,
      zero_add, ← sub_eq_add_neg, zero_sub]
  · intro i v hi hiN
    rw [h.hc.rd (tri_lt' hiN), h.hp.rd (tri_lt' hiN), h.hd.rd (tri_lt' hiN)]
    simp only [Option.bind_some]
    rw [forTo_sum (M := K × K × K) (fun j => (ca C L i j * D (tri i + j),
      cb C L i j * P (tri i + j) * (j : K), ca C L i j * P (tri i + j) * idr int i))]
    · simp only [Option.bind_some, h.hr.rd hiN]
      show some _ = some _
      congr 1
      simp only [Prod.fst_add, Prod.snd_add, Prod.fst_sum, Prod.snd_sum, zero_add]
      ext
      · simp only [Prod.fst_add]; rfl
      · simp only [Prod.snd_add, Prod.fst_add, sub_eq_add_neg]; rfl
      · simp only [Prod.snd_add, vI, add_mul, Finset.sum_mul, sub_eq_add_neg]
    · intro j w hj hji
      rw [h.hc.rd (tri_lt hji hiN), h.hl.rd (show j ≤ N by omega), h.hp.rd (tri_lt hji hiN),
        h.hd.rd (tri_lt hji hiN)]
      rfl

theorem evalVDv_spec (h : Ok N coef lcs lp ldp rrp C L P D R) (sin cos sqrt : K → K) (small : K → Bool)
    (elv rad : K) (int : Bool) :
    evalVDv sin cos sqrt small N elv rad coef lcs lp ldp rrp int =
      (fixPole sin cos sqrt small N elv coef lcs rrp (grad0 C L P D R (cos elv) int N)).map
        (fun g => (vSum C L P R N * rad, g)) := by
  unfold evalVDv
  rw [h.hc.rd (j := 0) (tri_lt' (i := 0) (Nat.zero_le N)), h.hr.rd (Nat.zero_le N)]
  simp only [Option.bind_eq_bind, Option.bind_some, tri_half]
  rw [forTo_sum (M := K × K × K × K) (fun i => (R i * vI C L P i, R i * vI C L D i,
    -(R i * aI C L P i), -(R i * (vI C L P i * idr int i))))]
  · simp only [Option.bind_some]
    have e : ∀ (x : Option (Grad K)) (v : K), (x.bind fun g => some (v, g)) = x.map (fun g => (v, g)) := by
      intro x v; cases x <;> rfl
    simp only [pure, e]
    congr 1
    · unfold vSum
      simp only [Prod.fst_add, Prod.fst_sum]
    · congr 1
      unfold grad0 elSum azSum rdSum
      simp only [Prod.fst_add, Prod.snd_add, Prod.fst_sum, Prod.snd_sum, Finset.sum_neg_distrib,
        zero_add, ← sub_eq_add_neg, zero_sub]
  · intro i v hi hiN
    rw [h.hc.rd (tri_lt' hiN), h.hp.rd (tri_lt' hiN), h.hd.rd (tri_lt' hiN)]
    simp only [Option.bind_some]
    rw [forTo_sum (M := K × K × K × K) (fun j => (ca C L i j * P (tri i + j), ca C L i j * D (tri i + j),
      cb C L i j * P (tri i + j) * (j : K), ca C L i j * P (tri i + j) * idr int i))]
    · simp only [Option.bind_some, h.hr.rd hiN]
      show some _ = some _
      congr 1
      simp only [Prod.fst_add, Prod.snd_add, Prod.fst_sum, Prod.snd_sum, zero_add]
      ext
      · simp only [Prod.fst_add]; rfl
      · simp only [Prod.snd_add, Prod.fst_add]; rfl
      · simp only [Prod.snd_add, Prod.fst_add, sub_eq_add_neg]; rfl
      · simp only [Prod.snd_add, vI, add_mul, Finset.sum_mul, sub_eq_add_neg]
    · intro j w hj hji
      rw [h.hc.rd (tri_lt hji hiN), h.hl.rd (show j ≤ N by omega), h.hp.rd (tri_lt hji hiN),
        h.hd.rd (tri_lt hji hiN)]
      rfl

end programs

/-! ### Azimuth component at the poles -/

theorem dvazPole_spec {N : Nat} {coef lcs : List (ℝ × ℝ)} {lp ldp rrp : List ℝ} {C L : Nat → ℝ × ℝ}
    {P D R : Nat → ℝ} (h : Ok N coef lcs lp ldp rrp C L P D R) (hN : 1 ≤ N) (elv : ℝ) :
    dvazPole Real.sin Real.sqrt N elv coef lcs rrp = some (-∑ i ∈ Finset.range N,
      cb C L (i + 1) 1 * R (i + 1) * (Verif.Spec.sq (i + 1) 1).eval (Real.sin elv)) := by
  unfold dvazPole
  rw [h.hl.rd hN, h.hr.rd hN, h.hc.rd (j := 2) (tri_lt (i := 1) (j := 1) (le_refl _) hN)]
  simp only [Option.bind_eq_bind, Option.bind_some, tri_half]
  obtain ⟨st, e, h1, -⟩ := forTo_inv
    (fun i (st : Pole ℝ) => st.dvaz = ∑ k ∈ Finset.range (i - 1),
        cb C L (k + 1) 1 * R (k + 1) * (Verif.Spec.sq (k + 1) 1).eval (Real.sin elv) ∧
      st.sqn1 = Verif.Spec.rho (i - 1) 0 ∧ st.ps0 = (Verif.Spec.gq (i - 1) 1).eval (Real.sin elv) ∧
      (3 ≤ i → st.ps1 = (Verif.Spec.gq (i - 2) 1).eval (Real.sin elv)))
    (fun i (st : Pole ℝ) =>
      (rd coef (1 + tri i)).bind fun c => (rd rrp i).bind fun r => pure
        ⟨st.dvaz + (c.1 * (L 1).2 - c.2 * (L 1).1) * r *
            (Real.sin elv * st.ps0 - (((i - 1) * (i - 1) - 1 : Nat) : ℝ) /
              (((2 * i - 1) * (2 * i - 3) : Nat) : ℝ) * st.ps1) *
            (st.sqn1 * (((2 * i - 1 : Nat) : ℝ) / (i : ℝ)) *
              Real.sqrt (((i * 2 : Nat) : ℝ) / ((i + 1 : Nat) : ℝ))),
          st.sqn1 * (((2 * i - 1 : Nat) : ℝ) / (i : ℝ)), st.ps0,
          Real.sin elv * st.ps0 - (((i - 1) * (i - 1) - 1 : Nat) : ℝ) /
              (((2 * i - 1) * (2 * i - 3) : Nat) : ℝ) * st.ps1⟩) 2 N
    ⟨((C 2).1 * (L 1).2 - (C 2).2 * (L 1).1) * R 1, 1, 1, 1⟩ (by omega)
    ⟨by
      show _ = _
      rw [show (2 - 1 : Nat) = 1 from rfl, Finset.sum_range_one, sq_one_one, mul_one]; rfl,
      Verif.Spec.rho_one_zero.symm, by
      show (1 : ℝ) = _
      rw [show (2 - 1 : Nat) = 1 from rfl, Verif.Spec.gq_self]; simp, fun h => by omega⟩
    (by
      rintro i ⟨dv, sq1, p1, p0⟩ hi hiN ⟨a1, a2, a3, a4⟩
      obtain ⟨k, rfl⟩ : ∃ k, i = k + 2 := ⟨i - 2, by omega⟩
      replace a1 : dv = _ := a1
      replace a2 : sq1 = Verif.Spec.rho (k + 1) 0 := a2
      replace a3 : p0 = (Verif.Spec.gq (k + 1) 1).eval (Real.sin elv) := a3
      replace a4 : 3 ≤ k + 2 → p1 = (Verif.Spec.gq k 1).eval (Real.sin elv) := a4
      have q1 : sq1 * (((2 * (k + 2) - 1 : Nat) : ℝ) / ((k + 2 : Nat) : ℝ)) = Verif.Spec.rho (k + 2) 0 := by
        rw [a2, Verif.Spec.rho_zero (k + 1)]
        congr 1
        rw [show 2 * (k + 2) - 1 = 2 * (k + 1) + 1 by omega]
        push_cast
        congr 1
        ring
      have q2 : Verif.Spec.rho (k + 2) 0 * Real.sqrt ((((k + 2) * 2 : Nat) : ℝ) / ((k + 2 + 1 : Nat) : ℝ)) =
          Verif.Spec.rho (k + 2) 1 := by
        rw [Verif.Spec.rho_one (k + 2) (by omega), Real.sqrt_div (Nat.cast_nonneg _), mul_assoc,
          mul_one_div, Nat.mul_comm (k + 2) 2]
      have q3 : Real.sin elv * p0 - (((k + 2 - 1) * (k + 2 - 1) - 1 : Nat) : ℝ) /
          (((2 * (k + 2) - 1) * (2 * (k + 2) - 3) : Nat) : ℝ) * p1 =
          (Verif.Spec.gq (k + 2) 1).eval (Real.sin elv) := by
        rcases k with _ | k
        · rw [a3, Verif.Spec.gq_self, Verif.Spec.gq_subdiag]; simp
        · have hr := congrArg (Polynomial.eval (Real.sin elv)) (Verif.Spec.gq_rec (k + 1) 1 (by omega))
          simp only [Polynomial.eval_sub, Polynomial.eval_mul, Polynomial.eval_X,
            Polynomial.eval_C] at hr
          rw [hr, a3, a4 (by omega)]
          congr 2
          rw [show 2 * (k + 1 + 2) - 1 = 2 * k + 5 by omega, show 2 * (k + 1 + 2) - 3 = 2 * k + 3 by omega,
            show (k + 1 + 2 - 1) * (k + 1 + 2 - 1) - 1 = (k + 1) * (k + 3) by
              rw [show k + 1 + 2 - 1 = k + 2 by omega]
              rw [show (k + 2) * (k + 2) = (k + 1) * (k + 3) + 1 by ring]; rfl]
          push_cast
          congr 1 <;> ring
      have hc := h.hc.rd (tri_lt (i := k + 2) (j := 1) (by omega) hiN)
      rw [Nat.add_comm] at hc
      simp only [hc, h.hr.rd hiN, Option.bind_some, q1, q2, q3]
      refine ⟨_, rfl, ?_, rfl, rfl, fun _ => a3⟩
      show _ = _
      rw [show k + 2 + 1 - 1 = (k + 1) + 1 by omega, Finset.sum_range_succ, a1,
        Verif.Spec.sq_gq (k + 1 + 1) 1, Polynomial.eval_mul, Polynomial.eval_C,
        show k + 2 - 1 = k + 1 from rfl]
      congr 1
      unfold cb
      rw [Nat.add_comm 1]
      ring)
  rw [e]
  simp only [Option.bind_some, h1]
  rfl

end Verif.ShPoint
