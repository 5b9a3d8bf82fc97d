/-
Errors of the Legendre functions of low degrees: the buffers of the rounded recurrence hold values
close to the exact functions.
-/
import Verif.Model.FloatLegendre
import Verif.Lemmas.LegendreLow
import Verif.Spec.RoundingError

namespace Verif.FloatLegendre

open Verif.Buf Verif.Legendre Verif.Spec

/-- The output buffers hold values which satisfy `E`. -/
def TR (o : Out ℝ) (N : Nat) (E : Nat → Nat → ℝ → ℝ → Prop) : Prop :=
  o.lp.length = tri (N + 1) ∧ o.ldp.length = tri (N + 1) ∧
  ∀ n m, m ≤ n → n ≤ N → ∃ p q, o.lp[tri n + m]? = some p ∧ o.ldp[tri n + m]? = some q ∧ E n m p q

variable {o : Out ℝ} {N : Nat} {E E' : Nat → Nat → ℝ → ℝ → Prop}

theorem TR.rd (h : TR o N E) {n m : Nat} {idx : Int} (hm : m ≤ n) (hn : n ≤ N)
    (hi : idx = (tri n : Int) + m) : ∃ p q, rdI o.lp idx = some p ∧ rdI o.ldp idx = some q ∧ E n m p q := by
  obtain ⟨p, q, h1, h2, h3⟩ := h.2.2 n m hm hn
  rw [hi, show ((tri n : Int) + m) = ((tri n + m : Nat) : Int) by push_cast; rfl]
  refine ⟨p, q, ?_, ?_, h3⟩
  · simp only [rdI, Int.natCast_nonneg, if_true, Int.toNat_natCast, Buf.rd]
    exact h1
  · simp only [rdI, Int.natCast_nonneg, if_true, Int.toNat_natCast, Buf.rd]
    exact h2

theorem TR.put (h : TR o N E) {n m : Nat} {idx : Int} {p q : ℝ} (hm : m ≤ n) (hn : n ≤ N)
    (hi : idx = (tri n : Int) + m) (hE : E' n m p q)
    (hD : ∀ a b, b ≤ a → a ≤ N → ¬ (a = n ∧ b = m) → ∀ p q, E a b p q → E' a b p q) :
    ∃ o', o.put idx p q = some o' ∧ TR o' N E' := by
  have hlt : tri n + m < tri (N + 1) := by
    have := tri_le (show n + 1 ≤ N + 1 by omega); simp only [tri] at this ⊢; omega
  have hi' : idx = ((tri n + m : Nat) : Int) := by rw [hi]; push_cast; rfl
  have w1 := wrI_eq (b := o.lp) p hi' (by rw [h.1]; exact hlt)
  have w2 := wrI_eq (b := o.ldp) q hi' (by rw [h.2.1]; exact hlt)
  refine ⟨⟨o.lp.set (tri n + m) p, o.ldp.set (tri n + m) q⟩, ?_, by simpa using h.1,
    by simpa using h.2.1, ?_⟩
  · simp only [Out.put, w1, w2]; rfl
  · intro a b hba haN
    simp only [List.getElem?_set]
    by_cases hk : tri n + m = tri a + b
    · obtain ⟨rfl, rfl⟩ := tri_inj hm hba hk
      rw [h.1, h.2.1]
      exact ⟨p, q, by simp [hlt], by simp [hlt], hE⟩
    · rw [if_neg hk, if_neg hk]
      obtain ⟨p', q', h1, h2, h3⟩ := h.2.2 a b hba haN
      refine ⟨p', q', h1, h2, hD a b hba haN ?_ _ _ h3⟩
      rintro ⟨rfl, rfl⟩
      exact hk rfl

theorem TR.mono (h : TR o N E) (hE : ∀ a b, b ≤ a → a ≤ N → ∀ p q, E a b p q → E' a b p q) : TR o N E' :=
  ⟨h.1, h.2.1, fun a b hb ha => by
    obtain ⟨p, q, h1, h2, h3⟩ := h.2.2 a b hb ha
    exact ⟨p, q, h1, h2, hE a b hb ha _ _ h3⟩⟩

/-! ### The recurrence -/

/-- Values close to the Gauss normalised functions of the degree `n`. -/
def Near (k : Nat) (s c : ℝ) (n m : Nat) (p q : ℝ) : Prop :=
  Rounded (n * (k + 3)) ((4 / 3) ^ n) (Gf s c n m) p ∧
  Rounded (n * (k + 3)) ((n + 1) * (4 / 3) ^ n) (Gd s c n m) q

theorem tiny {M : ℝ} (h : 1 / 3 ≤ M) : (2 : ℝ) ^ (-1021 : ℤ) ≤ M := by
  refine le_trans ?_ h
  refine (zpow_le_zpow_right₀ (by norm_num) (show (-1021 : ℤ) ≤ -2 by norm_num)).trans ?_
  norm_num

theorem one_le_pow43 (n : Nat) : (1 : ℝ) ≤ (4 / 3) ^ n := one_le_pow₀ (by norm_num)

/-- The weight of the recurrence. -/
theorem weight {rnd : ℝ → ℝ} (R : Nearest rnd) (k j : Nat) (hk : k ≤ 14) (hj : j ≤ k) :
    Rounded 2 (1 / 3) (1 / ((2 * (k : ℝ) + 3) * (2 * k + 1)) * (((k : ℝ) + 1) * (k + 1) - j * j))
      (rnd (rnd (1 / (((2 * ((k + 2 : Nat) : Int) - 1) * (2 * ((k + 2 : Nat) : Int) - 3) : Int) : ℝ)) *
        (((((k + 2 : Nat) : Int) - 1) * (((k + 2 : Nat) : Int) - 1) - (j : Int) * j : Int) : ℝ))) := by
  have e1 : (((2 * ((k + 2 : Nat) : Int) - 1) * (2 * ((k + 2 : Nat) : Int) - 3) : Int) : ℝ) =
      (2 * (k : ℝ) + 3) * (2 * k + 1) := by push_cast; ring
  have e2 : (((((k + 2 : Nat) : Int) - 1) * (((k + 2 : Nat) : Int) - 1) - (j : Int) * j : Int) : ℝ) =
      ((k : ℝ) + 1) * (k + 1) - j * j := by push_cast; ring
  rw [e1, e2]
  have hk' : (k : ℝ) ≤ 14 := by exact_mod_cast hk
  have hj' : (j : ℝ) ≤ k := by exact_mod_cast hj
  have hk0 : (0 : ℝ) ≤ k := Nat.cast_nonneg k
  have hj0 : (0 : ℝ) ≤ j := Nat.cast_nonneg j
  have hd : (0 : ℝ) < (2 * (k : ℝ) + 3) * (2 * k + 1) := by positivity
  have hd2 : (2 * (k : ℝ) + 3) * (2 * k + 1) ≤ 1024 := by nlinarith
  have hi : (1 : ℝ) ≤ ((k : ℝ) + 1) * (k + 1) - j * j := by nlinarith
  have hw : (1 : ℝ) / 1024 ≤ 1 / ((2 * (k : ℝ) + 3) * (2 * k + 1)) := one_div_le_one_div_of_le hd hd2
  have t : ∀ M : ℝ, 1 / 1024 ≤ M → (2 : ℝ) ^ (-1021 : ℤ) ≤ M := fun M hM =>
    ((zpow_le_zpow_right₀ (by norm_num) (show (-1021 : ℤ) ≤ -10 by norm_num)).trans (by norm_num)).trans hM
  have r1 := (Rounded.exact (x := 1 / ((2 * (k : ℝ) + 3) * (2 * k + 1))) (M := 1 / ((2 * (k : ℝ) + 3) * (2 * k + 1)))
    (by rw [abs_of_pos (by positivity)])).rnd R (t _ hw)
  have r2 := (r1.mul (Rounded.exact (x := ((k : ℝ) + 1) * (k + 1) - j * j) (M := ((k : ℝ) + 1) * (k + 1) - j * j)
    (by rw [abs_of_pos (by linarith)]))).rnd R (t _ (by nlinarith))
  refine r2.mono (by omega) ?_
  rw [one_div, inv_mul_le_iff₀ hd]
  nlinarith

variable {rnd : ℝ → ℝ} {s c s' c' : ℝ} {k : Nat}

theorem near_rec (R : Nearest rnd) (hs : Rounded k 1 s s') (hc : Rounded k 1 c c') {n m : Nat} (hm : m ≤ n)
    {w p1 q1 p2 q2 : ℝ}
    (hw : Rounded 2 (1 / 3) (1 / ((2 * (n : ℝ) + 3) * (2 * n + 1)) * (((n : ℝ) + 1) * (n + 1) - m * m)) w)
    (h1 : Near k s c (n + 1) m p1 q1) (h2 : Near k s c n m p2 q2) :
    Near k s c (n + 2) m (rnd (rnd (s' * p1) - rnd (w * p2)))
      (rnd (rnd (rnd (s' * q1) - rnd (w * q2)) + rnd (c' * p1))) := by
  have hn0 : (0 : ℝ) ≤ n := Nat.cast_nonneg n
  have hp := one_le_pow43 n
  have e1 : ((4 : ℝ) / 3) ^ (n + 1) = (4 / 3) ^ n * (4 / 3) := pow_succ _ _
  have e2 : ((4 : ℝ) / 3) ^ (n + 2) = (4 / 3) ^ n * (16 / 9) := by rw [pow_add]; norm_num
  unfold Near at *
  rw [Gf_rec s c n m hm, Gd_rec s c n m hm]
  rw [e1] at h1
  rw [e2]
  push_cast at h1 ⊢
  generalize ((4 : ℝ) / 3) ^ n = M at *
  generalize (1 / ((2 * (n : ℝ) + 3) * (2 * n + 1)) * (((n : ℝ) + 1) * (n + 1) - m * m)) = W at *
  have c1 : k + (n + 1) * (k + 3) + 3 ≤ (n + 2) * (k + 3) := by ring_nf; omega
  have c2 : 2 + n * (k + 3) + 3 ≤ (n + 2) * (k + 3) := by ring_nf; omega
  constructor
  · have a := ((hs.mul h1.1).rnd R (tiny (by linarith))).mono (m := (n + 2) * (k + 3) - 1) (by omega) le_rfl
    have b := ((hw.mul h2.1).rnd R (tiny (by linarith))).mono (m := (n + 2) * (k + 3) - 1) (by omega) le_rfl
    exact ((a.sub b).rnd R (tiny (by linarith))).mono (by omega) (by linarith)
  · have hM : 0 ≤ n * M := mul_nonneg hn0 (by linarith)
    have a := ((hs.mul h1.2).rnd R (tiny (by nlinarith))).mono (m := (n + 2) * (k + 3) - 2) (by omega) le_rfl
    have b := ((hw.mul h2.2).rnd R (tiny (by nlinarith))).mono (m := (n + 2) * (k + 3) - 2) (by omega) le_rfl
    have d := ((hc.mul h1.1).rnd R (tiny (by linarith))).mono (m := (n + 2) * (k + 3) - 1) (by omega) le_rfl
    have f := ((a.sub b).rnd R (tiny (by nlinarith))).mono (m := (n + 2) * (k + 3) - 1) (by omega) le_rfl
    exact ((f.add d).rnd R (tiny (by nlinarith))).mono (by omega) (by nlinarith)

theorem near_diag (R : Nearest rnd) (hs : Rounded k 1 s s') (hc : Rounded k 1 c c') {n : Nat} {p q : ℝ}
    (h : Near k s c n n p q) :
    Near k s c (n + 1) n (rnd (s' * p)) (rnd (rnd (s' * q) + rnd (c' * p))) ∧
    Near k s c (n + 1) (n + 1) (rnd (c' * p)) (rnd (rnd (c' * q) - rnd (s' * p))) := by
  have hn0 : (0 : ℝ) ≤ n := Nat.cast_nonneg n
  have hp := one_le_pow43 n
  have e1 : ((4 : ℝ) / 3) ^ (n + 1) = (4 / 3) ^ n * (4 / 3) := pow_succ _ _
  unfold Near at *
  rw [Gf_sub, Gd_sub, Gf_succ, Gd_succ, e1]
  push_cast
  generalize ((4 : ℝ) / 3) ^ n = M at *
  have c1 : k + n * (k + 3) + 3 ≤ (n + 1) * (k + 3) := by ring_nf; omega
  have hM : 0 ≤ n * M := mul_nonneg hn0 (by linarith)
  have a := ((hs.mul h.1).rnd R (tiny (by linarith))).mono (m := (n + 1) * (k + 3) - 1) (by omega) le_rfl
  have b := ((hc.mul h.1).rnd R (tiny (by linarith))).mono (m := (n + 1) * (k + 3) - 1) (by omega) le_rfl
  have d := ((hs.mul h.2).rnd R (tiny (by nlinarith))).mono (m := (n + 1) * (k + 3) - 1) (by omega) le_rfl
  have f := ((hc.mul h.2).rnd R (tiny (by nlinarith))).mono (m := (n + 1) * (k + 3) - 1) (by omega) le_rfl
  exact ⟨⟨a.mono (by omega) (by linarith), ((d.add b).rnd R (tiny (by nlinarith))).mono (by omega) (by nlinarith)⟩,
    b.mono (by omega) (by linarith), ((f.sub a).rnd R (tiny (by nlinarith))).mono (by omega) (by nlinarith)⟩

theorem lowRowF_spec (R : Nearest rnd) (hs : Rounded k 1 s s') (hc : Rounded k 1 c c') (i : Nat) (hi : i + 2 ≤ N)
    (hN : N ≤ 16) (h : TR o N (fun n m p q => n < i + 2 → Near k s c n m p q)) :
    ∃ o', lowRowF rnd s' c' (i + 2) o = some o' ∧ TR o' N (fun n m p q => n < i + 2 + 1 → Near k s c n m p q) := by
  have t2 : tri (i + 2) = tri (i + 1) + (i + 2) := rfl
  have t1 : tri (i + 1) = tri i + (i + 1) := rfl
  unfold lowRowF
  simp only [tri_div (i + 2)]
  obtain ⟨o1, e1, h1⟩ := forBelow_inv
    (fun j o => TR o N (fun n m p q => (n < i + 2 ∨ (n = i + 2 ∧ m < j)) → Near k s c n m p q))
    (fun j (o : Out ℝ) => do
      let idx0 : Int := (tri (i + 2) : Int) + j
      let idx1 : Int := (tri (i + 2) : Int) + j - (i + 2 : Nat)
      let idx2 : Int := (tri (i + 2) : Int) + j - (i + 2 : Nat) - (i + 2 : Nat) + 1
      let w : ℝ := rnd (rnd (1 / (((2 * ((i + 2 : Nat) : Int) - 1) * (2 * ((i + 2 : Nat) : Int) - 3) : Int) : ℝ)) *
        (((((i + 2 : Nat) : Int) - 1) * (((i + 2 : Nat) : Int) - 1) - (j : Int) * j : Int) : ℝ))
      let p1 ← rdI o.lp idx1
      let p2 ← rdI o.lp idx2
      let d1 ← rdI o.ldp idx1
      let d2 ← rdI o.ldp idx2
      o.put idx0 (rnd (rnd (s' * p1) - rnd (w * p2)))
        (rnd (rnd (rnd (s' * d1) - rnd (w * d2)) + rnd (c' * p1)))) 0 (i + 2 - 1) o (by omega)
    (h.mono (fun a b _ _ p q hpq hab => hpq (by omega)))
    (by
      intro j oo _ hj hoo
      have i1 : (tri (i + 2) : Int) + j - (i + 2 : Nat) = (tri (i + 1) : Int) + j := by
        rw [t2]; push_cast; ring
      have i2 : (tri (i + 2) : Int) + j - (i + 2 : Nat) - (i + 2 : Nat) + 1 = (tri i : Int) + j := by
        rw [t2, t1]; push_cast; ring
      obtain ⟨p1, q1, a1, b1, n1⟩ := hoo.rd (n := i + 1) (m := j) (by omega) (by omega) i1
      obtain ⟨p2, q2, a2, b2, n2⟩ := hoo.rd (n := i) (m := j) (by omega) (by omega) i2
      simp only [a1, b1, a2, b2, Option.bind_eq_bind, Option.bind_some]
      refine hoo.put (n := i + 2) (m := j) (by omega) hi rfl ?_ (fun a b _ _ hne p q hpq hab => hpq (by omega))
      intro _
      exact near_rec R hs hc (by omega) (weight R i j (by omega) (by omega)) (n1 (by omega)) (n2 (by omega)))
  simp only [Option.bind_eq_bind] at e1 ⊢
  rw [e1]
  simp only [Option.bind_some]
  have i1 : (tri (i + 2) : Int) - 1 = (tri (i + 1) : Int) + (i + 1 : Nat) := by
    rw [t2]; push_cast; ring
  obtain ⟨p, q, a, b, n1⟩ := h1.rd (n := i + 1) (m := i + 1) (by omega) (by omega) i1
  simp only [a, b, Option.bind_some]
  have hd := near_diag R hs hc (n1 (by omega))
  obtain ⟨o2, e2, h2⟩ := h1.put (n := i + 2) (m := i + 1)
    (E' := fun n m p q => (n < i + 2 ∨ (n = i + 2 ∧ m < i + 2)) → Near k s c n m p q)
    (idx := (tri (i + 2) : Int) + (i + 2 : Nat) - 1)
    (by omega) hi (by push_cast; ring) (fun _ => hd.1)
    (fun a b _ _ hne p q hpq hab => hpq (by omega))
  simp only [e2, Option.bind_some]
  exact h2.put (n := i + 2) (m := i + 2) (by omega) hi rfl (fun _ => hd.2)
    (fun a b _ _ hne p q hpq hab => hpq (by omega))

/-! ### The normalisation -/

theorem rho_zero_bounds (n : Nat) : 1 ≤ rho n 0 ∧ rho (n + 1) 0 ≤ 2 ^ n := by
  have h1 : 1 ≤ rho n 0 := by
    induction n with
    | zero => rw [rho_zero_zero]
    | succ n ih =>
      rw [rho_zero]
      have : (1 : ℝ) ≤ (2 * (n : ℝ) + 1) / ((n : ℝ) + 1) := by
        rw [le_div_iff₀ (by positivity)]
        linarith [(Nat.cast_nonneg n : (0 : ℝ) ≤ n)]
      nlinarith
  refine ⟨h1, ?_⟩
  clear h1
  induction n with
  | zero => rw [rho_one_zero]; norm_num
  | succ n ih =>
    rw [rho_zero, pow_succ]
    refine mul_le_mul ih ?_ (by positivity) (by positivity)
    rw [div_le_iff₀ (by positivity)]
    push_cast
    linarith [(Nat.cast_nonneg n : (0 : ℝ) ≤ n)]

theorem rho_bounds (n m : Nat) (h1 : 1 ≤ n) (hn : n ≤ 16) (hm : m ≤ n) : (1 / 6 : ℝ) ^ m ≤ rho n m ∧ rho n m ≤ 2 ^ n := by
  induction m with
  | zero =>
    obtain ⟨i, rfl⟩ : ∃ i, n = i + 1 := ⟨n - 1, by omega⟩
    have := (rho_zero_bounds i).2
    refine ⟨by simpa using (rho_zero_bounds (i + 1)).1, ?_⟩
    rw [pow_succ]
    have : (0 : ℝ) < 2 ^ i := by positivity
    linarith
  | succ m ih =>
    rcases m with _ | m
    · obtain ⟨i, rfl⟩ : ∃ i, n = i + 1 := ⟨n - 1, by omega⟩
      have b1 := (rho_zero_bounds (i + 1)).1
      have b2 := (rho_zero_bounds i).2
      rw [zero_add, rho_one _ h1, mul_assoc]
      have hpos := sqrt_nat_pos (k := i + 1 + 1) (by omega)
      have c1 : 1 ≤ Real.sqrt ((2 * (i + 1) : ℕ) : ℝ) * (1 / Real.sqrt ((i + 1 + 1 : ℕ) : ℝ)) := by
        rw [mul_one_div, le_div_iff₀ hpos, one_mul]
        exact Real.sqrt_le_sqrt (by exact_mod_cast (by omega))
      have c2 : Real.sqrt ((2 * (i + 1) : ℕ) : ℝ) * (1 / Real.sqrt ((i + 1 + 1 : ℕ) : ℝ)) ≤ 2 := by
        rw [mul_one_div, div_le_iff₀ hpos]
        rw [Real.sqrt_le_left (by positivity), mul_pow, Real.sq_sqrt (by positivity)]
        push_cast
        linarith [(Nat.cast_nonneg i : (0 : ℝ) ≤ i)]
      refine ⟨?_, ?_⟩
      · have := one_le_mul_of_one_le_of_one_le b1 c1
        norm_num at this ⊢
        linarith
      · rw [pow_succ]
        exact mul_le_mul b2 c2 (by linarith) (by positivity)
    · obtain ⟨i1, i2⟩ := ih (by omega)
      rw [rho_succ n (m + 1) (by omega) hm]
      have hpos := sqrt_nat_pos (k := n + (m + 1) + 1) (by omega)
      have c1 : 1 / 6 ≤ Real.sqrt ((n - (m + 1) : ℕ) : ℝ) * (1 / Real.sqrt ((n + (m + 1) + 1 : ℕ) : ℝ)) := by
        rw [mul_one_div, div_le_div_iff₀ (by norm_num) hpos, one_mul]
        have d1 : (1 : ℝ) ≤ Real.sqrt ((n - (m + 1) : ℕ) : ℝ) := by
          rw [Real.one_le_sqrt]
          exact_mod_cast (by omega)
        have d2 : Real.sqrt ((n + (m + 1) + 1 : ℕ) : ℝ) ≤ 6 := by
          rw [Real.sqrt_le_left (by norm_num)]
          have : ((n + (m + 1) + 1 : ℕ) : ℝ) ≤ (36 : ℕ) := by exact_mod_cast (by omega)
          norm_num at this ⊢
          linarith
        linarith
      have c2 : Real.sqrt ((n - (m + 1) : ℕ) : ℝ) * (1 / Real.sqrt ((n + (m + 1) + 1 : ℕ) : ℝ)) ≤ 1 := by
        rw [mul_one_div, div_le_one hpos]
        exact Real.sqrt_le_sqrt (by exact_mod_cast (by omega))
      have r0 : 0 ≤ rho n (m + 1) := le_trans (by positivity) i1
      refine ⟨?_, ?_⟩
      · rw [pow_succ]
        exact mul_le_mul i1 c1 (by norm_num) r0
      · exact (mul_le_of_le_one_right r0 c2).trans i2

/-- The item of the table of the square roots. -/
theorem rd_sqrtF (R : Nearest rnd) {sqrt : ℝ → ℝ} (hq : ∀ x, sqrt x = rnd (Real.sqrt x)) {degree i : Nat} {idx : Int}
    (hi : idx = (i : Int)) (hk : i < 2 * degree + 2) (h0 : 0 < i) :
    ∃ v, rdI (presqrt sqrt degree) idx = some v ∧ Rounded 1 (Real.sqrt (i : ℝ)) (Real.sqrt (i : ℝ)) v := by
  subst hi
  refine ⟨rnd (Real.sqrt (i : ℝ)), by simp [rdI, Buf.rd, presqrt, hk, hq], ?_⟩
  have h1 : (1 : ℝ) ≤ Real.sqrt (i : ℝ) := by
    rw [Real.one_le_sqrt]
    exact_mod_cast h0
  exact (Rounded.exact (by rw [abs_of_nonneg (Real.sqrt_nonneg _)])).rnd R (tiny (by linarith))

/-- The item of the table of the reciprocal square roots. -/
theorem rd_rsqrtF (R : Nearest rnd) {sqrt : ℝ → ℝ} (hq : ∀ x, sqrt x = rnd (Real.sqrt x)) {degree i : Nat} {idx : Int}
    (hi : idx = (i : Int)) (hk : i < 2 * degree + 2) (h0 : 0 < i) (h36 : i ≤ 36) :
    ∃ v, rdr (prersqrtF rnd sqrt degree) idx = some v ∧
      Rounded 3 (1 / Real.sqrt (i : ℝ)) (1 / Real.sqrt (i : ℝ)) v := by
  subst hi
  refine ⟨rnd (1 / rnd (Real.sqrt (i : ℝ))), by simp [rdr, rdI, Buf.rd, prersqrtF, hk, hq, h0.ne'], ?_⟩
  have h1 : (1 : ℝ) ≤ Real.sqrt (i : ℝ) := by
    rw [Real.one_le_sqrt]
    exact_mod_cast h0
  have h6 : Real.sqrt (i : ℝ) ≤ 6 := by
    rw [Real.sqrt_le_left (by norm_num)]
    have : (i : ℝ) ≤ (36 : ℕ) := by exact_mod_cast h36
    norm_num at this ⊢
    linarith
  have r := (Rounded.exact (x := Real.sqrt (i : ℝ)) (M := Real.sqrt (i : ℝ))
    (by rw [abs_of_nonneg (Real.sqrt_nonneg _)])).rnd R (tiny (by linarith))
  have hy1 : 1 ≤ rnd (Real.sqrt (i : ℝ)) := R.ge_of_ge F64.one h1
  generalize rnd (Real.sqrt (i : ℝ)) = y at *
  generalize Real.sqrt (i : ℝ) = x at *
  have hx0 : 0 < x := by linarith
  refine (Rounded.of_abs (n := 2) (M := 1 / x) (by rw [abs_of_pos (by positivity)]) ?_).rnd R ?_
  · have h2 := r.2
    rw [zero_add, pow_one, add_sub_cancel_left] at h2
    have e : 1 / y - 1 / x = (x - y) / (x * y) := by field_simp
    rw [e, abs_div, abs_of_pos (by positivity : 0 < x * y), abs_sub_comm, div_le_iff₀ (by positivity)]
    refine h2.trans ?_
    have hu : (2 : ℝ) ^ (-53 : ℤ) ≤ 1 / 2 := by norm_num
    have hu0 : (0 : ℝ) < 2 ^ (-53 : ℤ) := by positivity
    generalize (2 : ℝ) ^ (-53 : ℤ) = u at *
    have e2 : ((2 : ℕ) : ℝ) * u * (1 / x) * (x * y) = 2 * u * y := by push_cast; field_simp
    rw [e2]
    have h3 := (abs_le.mp h2).1
    have h4 : x ≤ 2 * y := by nlinarith
    nlinarith
  · have : (1 : ℝ) / 6 ≤ 1 / x := one_div_le_one_div_of_le hx0 h6
    refine le_trans ?_ this
    refine (zpow_le_zpow_right₀ (by norm_num) (show (-1021 : ℤ) ≤ -3 by norm_num)).trans ?_
    norm_num

/-- Values close to the Schmidt normalised functions. -/
def NearS (k : Nat) (s c : ℝ) (n m : Nat) (p q : ℝ) : Prop :=
  Rounded (n * (k + 11) + 1) ((8 / 3) ^ n) (Sf s c n m) p ∧
  Rounded (n * (k + 11) + 1) ((n + 1) * (8 / 3) ^ n) (Sd s c n m) q

theorem small16 {m : Nat} {M : ℝ} (hm : m ≤ 16) (h : (1 / 6 : ℝ) ^ m ≤ M) : (2 : ℝ) ^ (-1021 : ℤ) ≤ M := by
  have h1 : (1 / 6 : ℝ) ^ 16 ≤ (1 / 6) ^ m := pow_le_pow_of_le_one (by norm_num) (by norm_num) hm
  refine le_trans ?_ (h1.trans h)
  refine (zpow_le_zpow_right₀ (by norm_num) (show (-1021 : ℤ) ≤ -48 by norm_num)).trans ?_
  norm_num

theorem near_scale (R : Nearest rnd) {n m : Nat} (h1 : 1 ≤ n) (hn : n ≤ 16) (hm : m ≤ n) {p q f : ℝ}
    (h : Near k s c n m p q) (hf : Rounded (2 * n + 6 * m) (rho n m) (rho n m) f) :
    NearS k s c n m (rnd (p * f)) (rnd (q * f)) := by
  obtain ⟨b1, b2⟩ := rho_bounds n m h1 hn hm
  have hn0 : (0 : ℝ) ≤ n := Nat.cast_nonneg n
  have hp := one_le_pow43 n
  have hr0 : 0 ≤ rho n m := le_trans (by positivity) b1
  have e : ((8 : ℝ) / 3) ^ n = (4 / 3) ^ n * 2 ^ n := by rw [← mul_pow]; norm_num
  have cn : n * (k + 3) + (2 * n + 6 * m) + 1 ≤ n * (k + 11) + 1 := by ring_nf; omega
  unfold Near at h
  unfold NearS Sf Sd
  rw [e, mul_comm (rho n m), mul_comm (rho n m)]
  have hb : ((4 : ℝ) / 3) ^ n * rho n m ≤ (4 / 3) ^ n * 2 ^ n := mul_le_mul_of_nonneg_left b2 (by linarith)
  have hl : rho n m ≤ (4 / 3) ^ n * rho n m := le_mul_of_one_le_left hr0 hp
  have hl2 : rho n m ≤ (n + 1) * (4 / 3) ^ n * rho n m := le_mul_of_one_le_left hr0 (by nlinarith)
  refine ⟨((h.1.mul hf).rnd R (small16 (m := m) (by omega) (b1.trans hl))).mono cn hb, ?_⟩
  refine ((h.2.mul hf).rnd R (small16 (m := m) (by omega) (b1.trans hl2))).mono cn ?_
  rw [mul_assoc, ← e]
  rw [← e] at hb
  exact mul_le_mul_of_nonneg_left hb (by linarith)

/-- Normalised up to the item `(i, j)` (excluded). -/
def Done (k : Nat) (s c : ℝ) (i j n m : Nat) (p q : ℝ) : Prop :=
  ((n < i ∨ (n = i ∧ m < j)) → NearS k s c n m p q) ∧ (¬ (n < i ∨ (n = i ∧ m < j)) → Near k s c n m p q)

theorem normItemF (R : Nearest rnd) {i j : Nat} (h1 : 1 ≤ i) (hj : j ≤ i) (hi : i ≤ N) (hN : N ≤ 16) {idx : Int}
    (hidx : idx = (tri i : Int) + j) {f : ℝ} (hf : Rounded (2 * i + 6 * j) (rho i j) (rho i j) f)
    (h : TR o N (Done k s c i j)) :
    ∃ o', scaleF rnd o idx f = some o' ∧ TR o' N (Done k s c i (j + 1)) := by
  obtain ⟨p, q, a, b, hd⟩ := h.rd hj hi hidx
  simp only [scaleF, a, b, Option.bind_eq_bind, Option.bind_some]
  refine h.put hj hi hidx ⟨fun _ => near_scale R h1 (by omega) hj (hd.2 (by omega)) hf, fun hc => by omega⟩ ?_
  intro a b _ _ hne p q hpq
  exact ⟨fun hc => hpq.1 (by omega), fun hc => hpq.2 (by omega)⟩

theorem lowNormF_spec (R : Nearest rnd) {sqrt : ℝ → ℝ} (hq : ∀ x, sqrt x = rnd (Real.sqrt x)) (i : Nat) (h2 : 2 ≤ i)
    (hi : i ≤ N) (hN : N ≤ 16) {q0 : ℝ} (hq0 : Rounded (2 * (i - 1)) (rho (i - 1) 0) (rho (i - 1) 0) q0)
    (h : TR o N (Done k s c i 0)) :
    ∃ o' q1, lowNormF rnd (presqrt sqrt N) (prersqrtF rnd sqrt N) i (o, q0) = some (o', q1) ∧
      Rounded (2 * i) (rho i 0) (rho i 0) q1 ∧ TR o' N (Done k s c (i + 1) 0) := by
  unfold lowNormF
  simp only [tri_div]
  have hr : ∀ j ≤ i, 0 ≤ rho i j ∧ (2 : ℝ) ^ (-1021 : ℤ) ≤ rho i j := fun j hj => by
    have := (rho_bounds i j (by omega) (by omega) hj).1
    exact ⟨le_trans (by positivity) this, small16 (by omega) this⟩
  have r0 : Rounded (2 * i) (rho i 0) (rho i 0) (rnd (q0 * rnd (((2 * (i : Int) - 1 : Int) : ℝ) / (i : ℝ)))) := by
    obtain ⟨j, rfl⟩ : ∃ j, i = j + 1 := ⟨i - 1, by omega⟩
    have e : (((2 * ((j + 1 : Nat) : Int) - 1 : Int) : ℝ) / ((j + 1 : Nat) : ℝ)) = (2 * (j : ℝ) + 1) / ((j : ℝ) + 1) := by
      push_cast; congr 1; ring
    rw [e]
    have hj0 : (0 : ℝ) ≤ j := Nat.cast_nonneg j
    have hf : (1 : ℝ) ≤ (2 * (j : ℝ) + 1) / ((j : ℝ) + 1) := by
      rw [le_div_iff₀ (by positivity)]
      linarith
    have a := (Rounded.exact (x := (2 * (j : ℝ) + 1) / ((j : ℝ) + 1)) (M := (2 * (j : ℝ) + 1) / ((j : ℝ) + 1))
      (by rw [abs_of_pos (by positivity)])).rnd R (tiny (by linarith))
    have b := hq0.mul a
    rw [Nat.add_sub_cancel, ← rho_zero j] at b
    exact (b.rnd R (hr 0 (by omega)).2).mono (by omega) le_rfl
  generalize rnd (q0 * rnd (((2 * (i : Int) - 1 : Int) : ℝ) / (i : ℝ))) = s0 at *
  obtain ⟨o1, e1, h1⟩ := normItemF R (j := 0) (by omega) (by omega) hi hN (idx := (tri i : Int)) (by simp) (by simpa using r0) h
  rw [e1]
  obtain ⟨a, ea, ra⟩ := rd_sqrtF R hq (degree := N) (i := 2 * i) (idx := 2 * (i : Int)) (by push_cast; rfl) (by omega)
    (by omega)
  obtain ⟨b, eb, rb⟩ := rd_rsqrtF R hq (degree := N) (i := i + 1) (idx := (i : Int) + 1) (by push_cast; rfl)
    (by omega) (by omega) (by omega)
  simp only [Option.bind_eq_bind, Option.bind_some, ea, eb]
  have r1 : Rounded (2 * i + 6 * 1) (rho i 1) (rho i 1) (rnd (rnd (s0 * a) * b)) := by
    have h0 := (hr 0 (by omega)).2
    have g1 : (1 : ℝ) ≤ Real.sqrt ((2 * i : ℕ) : ℝ) := by
      rw [Real.one_le_sqrt]
      exact_mod_cast (by omega)
    have x := (r0.mul ra).rnd R (h0.trans (le_mul_of_one_le_right (hr 0 (by omega)).1 g1))
    have y := x.mul rb
    rw [← rho_one i (by omega)] at y
    exact (y.rnd R (hr 1 (by omega)).2).mono (by omega) le_rfl
  generalize rnd (rnd (s0 * a) * b) = s1 at *
  obtain ⟨o2, e2, h2'⟩ := normItemF R (j := 1) (by omega) (by omega) hi hN (idx := (tri i : Int) + 1) (by simp)
    r1 h1
  rw [e2]
  simp only [Option.bind_some]
  obtain ⟨st, e3, h3⟩ := forTo_inv
    (fun j (st : Out ℝ × ℝ) => TR st.1 N (Done k s c i j) ∧
      Rounded (2 * i + 6 * (j - 1)) (rho i (j - 1)) (rho i (j - 1)) st.2)
    (fun j (st : Out ℝ × ℝ) => do
      let a ← rdI (presqrt sqrt N) ((i : Int) - j + 1)
      let b ← rdr (prersqrtF rnd sqrt N) (i + j)
      let sqn1 := rnd (st.2 * rnd (a * b))
      let o ← scaleF rnd st.1 ((tri i : Int) + j) sqn1
      return (o, sqn1)) 2 i (o2, s1) (by omega) ⟨h2', r1⟩
    (by
      rintro j ⟨oo, q⟩ hj hji ⟨hT, hq'⟩
      replace hT : TR oo N (Done k s c i j) := hT
      replace hq' : Rounded (2 * i + 6 * (j - 1)) (rho i (j - 1)) (rho i (j - 1)) q := hq'
      obtain ⟨a, ea, ra⟩ := rd_sqrtF R hq (degree := N) (i := i - (j - 1)) (idx := (i : Int) - j + 1) (by omega)
        (by omega) (by omega)
      obtain ⟨b, eb, rb⟩ := rd_rsqrtF R hq (degree := N) (i := i + (j - 1) + 1) (idx := (i : Int) + j) (by omega)
        (by omega) (by omega) (by omega)
      have q3 := rho_succ i (j - 1) (by omega) (by omega)
      rw [show j - 1 + 1 = j by omega] at q3
      have rf : Rounded (2 * i + 6 * j) (rho i j) (rho i j) (rnd (q * rnd (a * b))) := by
        have g1 : (1 : ℝ) ≤ Real.sqrt ((i - (j - 1) : ℕ) : ℝ) := by
          rw [Real.one_le_sqrt]
          exact_mod_cast (by omega)
        have g2 : (1 : ℝ) / 6 ≤ 1 / Real.sqrt ((i + (j - 1) + 1 : ℕ) : ℝ) := by
          refine one_div_le_one_div_of_le (sqrt_nat_pos (by omega)) ?_
          rw [Real.sqrt_le_left (by norm_num)]
          have : ((i + (j - 1) + 1 : ℕ) : ℝ) ≤ (36 : ℕ) := by exact_mod_cast (by omega)
          norm_num at this ⊢
          linarith
        have x := (ra.mul rb).rnd R (small16 (m := 1) (by omega) (by rw [pow_one]; nlinarith))
        have y := hq'.mul x
        rw [← q3] at y
        exact (y.rnd R (hr j hji).2).mono (by omega) le_rfl
      obtain ⟨o4, e4, h4⟩ := normItemF R (by omega) hji hi hN (idx := (tri i : Int) + j) rfl rf hT
      refine ⟨(o4, _), ?_, h4, rf⟩
      simp only [ea, eb, Option.bind_eq_bind, Option.bind_some, e4]
      rfl)
  simp only [Option.bind_eq_bind] at e3
  rw [e3]
  refine ⟨st.1, s0, rfl, r0, h3.1.mono ?_⟩
  intro a b hb _ p q hpq
  exact ⟨fun hc => hpq.1 (by omega), fun hc => hpq.2 (by omega)⟩

theorem lowF_spec (R : Nearest rnd) {sqrt : ℝ → ℝ} (hq : ∀ x, sqrt x = rnd (Real.sqrt x)) (hs : Rounded k 1 s s')
    (hc : Rounded k 1 c c') (o : Out ℝ) (hN1 : 1 ≤ N) (hN : N ≤ 16) (hl : o.lp.length = tri (N + 1))
    (hl' : o.ldp.length = tri (N + 1)) :
    ∃ o', lowF rnd o N s' c' (presqrt sqrt N) (prersqrtF rnd sqrt N) = some o' ∧ TR o' N (NearS k s c) := by
  have h3 : 3 ≤ tri (N + 1) := by
    have := tri_le (show 2 ≤ N + 1 by omega); simp only [tri] at this ⊢; omega
  have g00 : Gf s c 0 0 = 1 := by rw [Gf_self]; simp
  have d00 : Gd s c 0 0 = 0 := by rw [Gd_self]; simp
  have g10 : Gf s c 1 0 = s := by rw [Gf_sub, g00]; simp
  have d10 : Gd s c 1 0 = c := by rw [Gd_sub, g00, d00]; simp
  have g11 : Gf s c 1 1 = c := by rw [Gf_succ, g00]; simp
  have d11 : Gd s c 1 1 = -s := by rw [Gd_succ, g00, d00]; simp
  have hs1 : Rounded (k + 3) 1 s s' := hs.mono (by omega) le_rfl
  have hc1 : Rounded (k + 3) 1 c c' := hc.mono (by omega) le_rfl
  have n00 : Near k s c 0 0 1 0 := by
    refine ⟨?_, ?_⟩
    · rw [g00, Nat.zero_mul]; exact Rounded.exact (by norm_num)
    · rw [d00, Nat.zero_mul]; exact Rounded.exact (by norm_num)
  have n10 : Near k s c 1 0 s' c' := by
    refine ⟨?_, ?_⟩
    · rw [g10, one_mul]; exact hs1.mono le_rfl (by norm_num)
    · rw [d10, one_mul]; exact hc1.mono le_rfl (by norm_num)
  have n11 : Near k s c 1 1 c' (-s') := by
    refine ⟨?_, ?_⟩
    · rw [g11, one_mul]; exact hc1.mono le_rfl (by norm_num)
    · rw [d11, one_mul]; exact hs1.neg.mono le_rfl (by norm_num)
  unfold lowF
  rw [wrI_eq (k := 0) (idx := 0) _ rfl (by omega)]
  simp only [Option.bind_eq_bind, Option.bind_some]
  rw [wrI_eq (k := 1) (idx := 1) _ rfl (by simp; omega)]
  simp only [Option.bind_some]
  rw [wrI_eq (k := 2) (idx := 2) _ rfl (by simp; omega)]
  simp only [Option.bind_some]
  rw [wrI_eq (k := 0) (idx := 0) _ rfl (by omega)]
  simp only [Option.bind_some]
  rw [wrI_eq (k := 1) (idx := 1) _ rfl (by simp; omega)]
  simp only [Option.bind_some]
  rw [wrI_eq (k := 2) (idx := 2) _ rfl (by simp; omega)]
  simp only [Option.bind_some]
  have hT0 : TR ⟨((o.lp.set 0 1).set 1 s').set 2 c', ((o.ldp.set 0 0).set 1 c').set 2 (-s')⟩ N
      (fun n m p q => n < 2 → Near k s c n m p q) := by
    refine ⟨by simpa using hl, by simpa using hl', ?_⟩
    intro n m hm hnN
    have L : 0 < o.lp.length ∧ 1 < o.lp.length ∧ 2 < o.lp.length ∧ 0 < o.ldp.length ∧
      1 < o.ldp.length ∧ 2 < o.ldp.length := by omega
    obtain ⟨a0, a1, a2, b0, b1, b2⟩ := L
    by_cases hn2 : n < 2
    · have hc : (n = 0 ∧ m = 0) ∨ (n = 1 ∧ m = 0) ∨ (n = 1 ∧ m = 1) := by omega
      rcases hc with ⟨rfl, rfl⟩ | ⟨rfl, rfl⟩ | ⟨rfl, rfl⟩
      · exact ⟨1, 0, by simp [tri, List.getElem?_set, a0], by simp [tri, List.getElem?_set, b0], fun _ => n00⟩
      · exact ⟨s', c', by simp [tri, List.getElem?_set, a1], by simp [tri, List.getElem?_set, b1], fun _ => n10⟩
      · exact ⟨c', -s', by simp [tri, List.getElem?_set, a2], by simp [tri, List.getElem?_set, b2], fun _ => n11⟩
    · have hlt : tri n + m < tri (N + 1) := by
        have := tri_le (show n + 1 ≤ N + 1 by omega); simp only [tri] at this ⊢; omega
      exact ⟨_, _, List.getElem?_eq_getElem (by simpa [hl] using hlt),
        List.getElem?_eq_getElem (by simpa [hl'] using hlt), fun h => absurd h hn2⟩
  obtain ⟨o1, e1, h1⟩ := forTo_inv (fun i o => TR o N (fun n m p q => n < i → Near k s c n m p q))
    (lowRowF rnd s' c') 2 N _ (by omega) hT0
    (by
      intro i oo hi hiN hoo
      obtain ⟨k, rfl⟩ : ∃ k, i = k + 2 := ⟨i - 2, by omega⟩
      exact lowRowF_spec R hs hc k hiN hN hoo)
  rw [e1]
  simp only [Option.bind_some]
  have hT1 : TR o1 N (Done k s c 2 0) := by
    refine h1.mono (fun a b hb ha p q hpq => ⟨fun hab => ?_, fun hab => hpq (by omega)⟩)
    have hn := hpq (by omega)
    have hab' : (a = 0 ∧ b = 0) ∨ (a = 1 ∧ b = 0) ∨ (a = 1 ∧ b = 1) := by omega
    unfold Near at hn
    unfold NearS Sf Sd
    rcases hab' with ⟨rfl, rfl⟩ | ⟨rfl, rfl⟩ | ⟨rfl, rfl⟩
    · rw [rho_zero_zero, one_mul, one_mul]
      exact ⟨hn.1.mono (by omega) (by norm_num), hn.2.mono (by omega) (by norm_num)⟩
    · rw [rho_one_zero, one_mul (Gf _ _ _ _), one_mul (Gd _ _ _ _)]
      exact ⟨hn.1.mono (by omega) (by norm_num), hn.2.mono (by omega) (by norm_num)⟩
    · rw [rho_one_one, one_mul (Gf _ _ _ _), one_mul (Gd _ _ _ _)]
      exact ⟨hn.1.mono (by omega) (by norm_num), hn.2.mono (by omega) (by norm_num)⟩
  obtain ⟨st, e2, h2⟩ := forTo_inv
    (fun i (st : Out ℝ × ℝ) => TR st.1 N (Done k s c i 0) ∧
      Rounded (2 * (i - 1)) (rho (i - 1) 0) (rho (i - 1) 0) st.2)
    (lowNormF rnd (presqrt sqrt N) (prersqrtF rnd sqrt N)) 2 N (o1, 1) (by omega)
    ⟨hT1, by
      rw [show 2 - 1 = 1 from rfl, rho_one_zero]
      exact (Rounded.exact (by norm_num)).mono (by omega) le_rfl⟩
    (by
      rintro i ⟨oo, q⟩ hi hiN ⟨hT, hq'⟩
      obtain ⟨o4, q1, e4, hq1, h4⟩ := lowNormF_spec R hq i hi hiN hN hq' hT
      exact ⟨_, e4, h4, by simpa using hq1⟩)
  rw [e2]
  exact ⟨st.1, rfl, h2.1.mono (fun a b hb ha p q hpq => hpq.1 (by omega))⟩

end Verif.FloatLegendre
