import Verif.Lemmas.LegendreLow

set_option linter.unusedSectionVars false

namespace Verif.Legendre

open Verif.Buf Verif.Spec Polynomial

theorem Sf_eq (s c : ℝ) (n m : Nat) : Sf s c n m = c ^ m * (sq n m).eval s := by
  rw [Sf, Gf, sq_gq]; simp only [eval_mul, eval_C]; ring

theorem Sd_eq (s c : ℝ) (n m : Nat) : Sd s c n m =
    -((m : ℝ) * c ^ (m - 1) * s * (sq n m).eval s) + c ^ (m + 1) * (derivative (sq n m)).eval s := by
  rw [Sd, Gd, sq_gq, derivative_C_mul]; simp only [eval_mul, eval_C]; ring

/-- Derivative by the function of the lower degree. -/
theorem Sd_low {s c : ℝ} (hc : c ^ 2 = 1 - s ^ 2) (n m : Nat) (hm : 1 ≤ m) (h : m ≤ n) :
    Sd s c (n + 1) m = c ^ (m - 1) * (-(((n : ℝ) + 1) * s * (sq (n + 1) m).eval s) +
      Real.sqrt ((n + 1 + m : ℕ) : ℝ) * Real.sqrt ((n + 1 - m : ℕ) : ℝ) * (sq n m).eval s) := by
  have hd := sq_deriv n m h s
  obtain ⟨k, rfl⟩ : ∃ k, m = k + 1 := ⟨m - 1, by omega⟩
  rw [Sd_eq, show k + 1 - 1 = k from rfl]
  rw [← hc] at hd
  linear_combination c ^ k * hd

theorem Sd_zonal {s c : ℝ} (hc : c ^ 2 = 1 - s ^ 2) (h0 : c ≠ 0) (n : Nat) :
    Sd s c (n + 1) 0 = ((n : ℝ) + 1) * (1 / c) * ((sq n 0).eval s - s * (sq (n + 1) 0).eval s) := by
  have hd := sq_deriv n 0 (Nat.zero_le n) s
  have hs := sqrt_sq_nat (n + 1)
  rw [Sd_eq]
  rw [← hc] at hd
  simp only [Nat.add_zero, Nat.sub_zero, hs] at hd
  push_cast at hd
  have : c * (-(((0 : ℕ) : ℝ) * c ^ (0 - 1) * s * (sq (n + 1) 0).eval s) +
      c ^ (0 + 1) * (derivative (sq (n + 1) 0)).eval s) =
      ((n : ℝ) + 1) * ((sq n 0).eval s - s * (sq (n + 1) 0).eval s) := by
    push_cast
    linear_combination hd
  field_simp
  linear_combination this

theorem sq_zero (x : ℝ) : (sq 0 0).eval x = 1 := by
  rw [sq_gq, gq_self, rho_zero_zero]; simp

theorem sq_one (x : ℝ) : (sq 1 0).eval x = x := by
  rw [sq_gq, gq_subdiag, rho_one_zero]; simp

theorem sq_one_one (x : ℝ) : (sq 1 1).eval x = 1 := by
  rw [sq_gq, gq_self, rho_one_one]; simp

/-- Recurrence of the order 0. -/
theorem sq_zonal (n : Nat) (x : ℝ) : ((n : ℝ) + 2) * (sq (n + 2) 0).eval x =
    (2 * (n : ℝ) + 3) * x * (sq (n + 1) 0).eval x - ((n : ℝ) + 1) * (sq n 0).eval x := by
  have h := sq_rec n 0 (Nat.zero_le n) x
  simp only [Nat.add_zero, Nat.sub_zero] at h
  rw [sqrt_sq_nat (n + 2), sqrt_sq_nat (n + 1)] at h
  push_cast at h
  exact h

theorem sq_sub (n : Nat) (x : ℝ) :
    (sq (n + 1) n).eval x = x * (Real.sqrt ((2 * n + 1 : ℕ) : ℝ) * (sq n n).eval x) := by
  have hr := congrArg (eval x) (dP_subdiag n)
  simp only [eval_mul, eval_add, eval_natCast, eval_ofNat, eval_X, eval_one] at hr
  have h1 := norm_succ_n n n (le_refl _)
  rw [show n + 1 + n = 2 * n + 1 by ring, show n + 1 - n = 1 by omega] at h1
  simp only [Nat.cast_one, Real.sqrt_one, mul_one] at h1
  have hs := sqrt_sq_nat (2 * n + 1)
  have c2 : ((2 * n + 1 : ℕ) : ℝ) = 2 * (n : ℝ) + 1 := by push_cast; ring
  simp only [Verif.Spec.sq, eval_mul, eval_C]
  set E := Real.sqrt ((2 * n + 1 : ℕ) : ℝ)
  rw [c2] at hs
  rw [hr, ← h1, ← hs]
  ring

theorem sq_diag (n : Nat) (hn : 1 ≤ n) (x : ℝ) : Real.sqrt ((2 * (n + 1) : ℕ) : ℝ) * (sq (n + 1) (n + 1)).eval x =
    Real.sqrt ((2 * n + 1 : ℕ) : ℝ) * (sq n n).eval x := by
  have hr := congrArg (eval x) (dP_diag n)
  simp only [eval_mul, eval_add, eval_natCast, eval_ofNat, eval_one] at hr
  have h1 := norm_succ_n n n (le_refl _)
  have h2 := norm_succ_m (n + 1) n hn (by omega)
  rw [show n + 1 + n = 2 * n + 1 by ring, show n + 1 - n = 1 by omega] at h1
  rw [show n + 1 - n = 1 by omega, show n + 1 + n + 1 = 2 * (n + 1) by ring] at h2
  simp only [Nat.cast_one, Real.sqrt_one, mul_one, one_mul] at h1 h2
  have hs := sqrt_sq_nat (2 * n + 1)
  have c2 : ((2 * n + 1 : ℕ) : ℝ) = 2 * (n : ℝ) + 1 := by push_cast; ring
  simp only [Verif.Spec.sq, eval_mul, eval_C]
  set E := Real.sqrt ((2 * n + 1 : ℕ) : ℝ)
  set F := Real.sqrt ((2 * (n + 1) : ℕ) : ℝ)
  rw [c2] at hs
  rw [hr, ← h1, ← h2, ← hs]
  ring

variable {o : Out ℝ} {N : Nat} {s c scale : ℝ}

theorem highZonal_spec (hc : c ^ 2 = 1 - s ^ 2) (h0 : c ≠ 0) (k : Nat) (hk : k + 2 ≤ N)
    (h : T o N (fun n m => m = 0 ∧ n < k + 2) (Sf s c) (Sd s c)) :
    ∃ o', highZonal s (1 / c) (k + 2) ⟨o, (sq k 0).eval s, (sq (k + 1) 0).eval s, tri (k + 2)⟩ =
        some ⟨o', (sq (k + 1) 0).eval s, (sq (k + 2) 0).eval s, tri (k + 3)⟩ ∧
      T o' N (fun n m => m = 0 ∧ n < k + 3) (Sf s c) (Sd s c) := by
  have e0 : ((2 * ((k + 2 : Nat) : Int) - 1 : Int) : ℝ) / ((k + 2 : Nat) : ℝ) * s * (sq (k + 1) 0).eval s -
      (((((k + 2 : Nat) : Int) - 1 : Int) : ℝ) / ((k + 2 : Nat) : ℝ)) * (sq k 0).eval s =
      (sq (k + 2) 0).eval s := by
    have h := sq_zonal k s
    have hp : (k : ℝ) + 2 ≠ 0 := by positivity
    push_cast
    field_simp
    linear_combination -h
  have hd := Sd_zonal hc h0 (k + 1)
  obtain ⟨o', e, hT⟩ := h.put_same (n := k + 2) (m := 0) (idx := (tri (k + 2) : Int))
    (p := (sq (k + 2) 0).eval s)
    (q := (((k + 2 : Nat) : ℝ) * (1 / c)) * ((sq (k + 1) 0).eval s - s * (sq (k + 2) 0).eval s))
    (D' := fun n m => m = 0 ∧ n < k + 3) (by omega) hk (by simp) (by rw [Sf_eq]; simp)
    (by rw [hd]; push_cast; ring) (fun a b _ _ hab => by omega)
  refine ⟨o', ?_, hT⟩
  unfold highZonal
  simp only [e0, e, Option.bind_eq_bind, Option.bind_some]
  show some _ = some _
  congr 2

theorem highDeg_spec (hc : c ^ 2 = 1 - s ^ 2) (hs : scale ≠ 0) (j : Nat) (hj : 1 ≤ j) (k : Nat)
    (hjk : j ≤ k) (hk : k + 2 ≤ N)
    (h : T o N (fun n m => m < j ∨ (m = j ∧ n < k + 2)) (Sf s c) (Sd s c)) :
    ∃ o', highDeg s (scale * c ^ j) (scale * c ^ (j - 1)) (presqrt Real.sqrt N) (prersqrt Real.sqrt N) j
        (k + 2) ⟨o, 1 / scale * (sq k j).eval s, 1 / scale * (sq (k + 1) j).eval s, tri (k + 2) + j⟩ =
        some ⟨o', 1 / scale * (sq (k + 1) j).eval s, 1 / scale * (sq (k + 2) j).eval s, tri (k + 3) + j⟩ ∧
      T o' N (fun n m => m < j ∨ (m = j ∧ n < k + 3)) (Sf s c) (Sd s c) := by
  have r1 := rd_presqrt (degree := N) (k := k + 2 + j) (idx := ((k + 2 : Nat) : Int) + j)
    (by push_cast; rfl) (by omega)
  have r2 := rd_presqrt (degree := N) (k := k + 2 - j) (idx := ((k + 2 : Nat) : Int) - j)
    (by omega) (by omega)
  have r3 := rd_prersqrt (degree := N) (k := k + 2 + j) (idx := ((k + 2 : Nat) : Int) + j)
    (by push_cast; rfl) (by omega) (by omega)
  have r4 := rd_prersqrt (degree := N) (k := k + 2 - j) (idx := ((k + 2 : Nat) : Int) - j)
    (by omega) (by omega) (by omega)
  have r5 := rd_presqrt (degree := N) (k := k + 1 - j) (idx := ((k + 2 : Nat) : Int) - j - 1)
    (by omega) (by omega)
  have r6 := rd_presqrt (degree := N) (k := k + 1 + j) (idx := ((k + 2 : Nat) : Int) + j - 1)
    (by omega) (by omega)
  have hr := sq_rec k j hjk s
  have p1 := (sqrt_nat_pos (k := k + 2 + j) (by omega)).ne'
  have p2 := (sqrt_nat_pos (k := k + 2 - j) (by omega)).ne'
  have hd := Sd_low hc (k + 1) j hj (by omega)
  rw [show k + 1 + 1 = k + 2 from rfl] at hd
  unfold highDeg
  simp only [r1, r2, r3, r4, r5, r6, Option.bind_eq_bind, Option.bind_some]
  generalize hA : Real.sqrt ((k + 2 + j : ℕ) : ℝ) = A at *
  generalize hB : Real.sqrt ((k + 2 - j : ℕ) : ℝ) = B at *
  generalize hE : Real.sqrt ((k + 1 - j : ℕ) : ℝ) = E at *
  generalize hF : Real.sqrt ((k + 1 + j : ℕ) : ℝ) = F at *
  have e0 : (((2 * ((k + 2 : Nat) : Int) - 1 : Int) : ℝ) * s * (1 / scale * (sq (k + 1) j).eval s) -
      E * F * (1 / scale * (sq k j).eval s)) * (1 / A * (1 / B)) = 1 / scale * (sq (k + 2) j).eval s := by
    push_cast
    field_simp
    linear_combination -hr
  rw [e0]
  obtain ⟨o', e, hT⟩ := h.put_same (n := k + 2) (m := j) (idx := (tri (k + 2) : Int) + j)
    (p := scale * c ^ j * (1 / scale * (sq (k + 2) j).eval s))
    (q := -(scale * c ^ (j - 1)) * (((k + 2 : Nat) : ℝ) * s * (1 / scale * (sq (k + 2) j).eval s) -
      A * B * (1 / scale * (sq (k + 1) j).eval s)))
    (D' := fun n m => m < j ∨ (m = j ∧ n < k + 3)) (by omega) hk rfl
    (by rw [Sf_eq]; field_simp)
    (by rw [hd]; push_cast; field_simp; ring) (fun a b _ _ hab => by omega)
  refine ⟨o', ?_, hT⟩
  rw [e]
  show some _ = some _
  congr 2
  rw [show tri (k + 3) = tri (k + 2) + (k + 3) from rfl]; push_cast; ring

theorem highOrder_spec (hc : c ^ 2 = 1 - s ^ 2) (hs : scale ≠ 0) (j : Nat) (hj : 1 ≤ j) (hjN : j < N)
    (pmm : ℝ) (hp : pmm = 1 / scale * (Real.sqrt ((2 * j : ℕ) : ℝ) * (sq j j).eval s))
    (h : T o N (fun _ m => m < j) (Sf s c) (Sd s c)) :
    ∃ o', highOrder N s c (presqrt Real.sqrt N) (prersqrt Real.sqrt N) j
        ⟨o, pmm, scale * c ^ (j - 1), tri j + j⟩ =
        some ⟨o', 1 / scale * (Real.sqrt ((2 * (j + 1) : ℕ) : ℝ) * (sq (j + 1) (j + 1)).eval s),
          scale * c ^ j, tri (j + 1) + (j + 1 : Nat)⟩ ∧
      T o' N (fun _ m => m < j + 1) (Sf s c) (Sd s c) := by
  have r1 := rd_presqrt (degree := N) (k := 2 * j + 1) (idx := 2 * (j : Int) + 1)
    (by push_cast; rfl) (by omega)
  have r2 := rd_prersqrt (degree := N) (k := 2 * j) (idx := 2 * (j : Int))
    (by push_cast; rfl) (by omega) (by omega)
  have r3 := rd_prersqrt (degree := N) (k := 2 * j + 1) (idx := 2 * (j : Int) + 1)
    (by push_cast; rfl) (by omega) (by omega)
  have q1 := (sqrt_nat_pos (k := 2 * j + 1) (by omega)).ne'
  have q2 := (sqrt_nat_pos (k := 2 * j) (by omega)).ne'
  have hdiag := sq_diag j hj s
  have hsub := sq_sub j s
  have hpow : scale * c ^ (j - 1) * c = scale * c ^ j := by
    obtain ⟨i, rfl⟩ : ∃ i, j = i + 1 := ⟨j - 1, by omega⟩
    rw [show i + 1 - 1 = i from rfl]; ring
  have hss := sqrt_sq_nat (2 * j + 1)
  have hd1 := Sd_low hc j j hj (le_refl _)
  rw [show j + 1 + j = 2 * j + 1 by ring, show j + 1 - j = 1 by omega] at hd1
  simp only [Nat.cast_one, Real.sqrt_one, mul_one] at hd1
  unfold highOrder
  simp only [r1, r2, r3, Option.bind_eq_bind, Option.bind_some, hpow]
  generalize hG : Real.sqrt ((2 * j + 1 : ℕ) : ℝ) = G at *
  generalize hH : Real.sqrt ((2 * j : ℕ) : ℝ) = H at *
  have e1 : pmm * (G * (1 / H)) = 1 / scale * (G * (sq j j).eval s) := by
    rw [hp]; field_simp
  have e2 : 1 / scale * (G * (sq j j).eval s) * (1 / G) = 1 / scale * (sq j j).eval s := by
    field_simp
  have e3 : s * (1 / scale * (G * (sq j j).eval s)) = 1 / scale * (sq (j + 1) j).eval s := by
    rw [hsub]; ring
  rw [e1, e2, e3]
  have hself : Sd s c j j = -((j : ℝ) * c ^ (j - 1) * s * (sq j j).eval s) := by
    rw [Sd_eq, sq_gq, gq_self]; simp
  obtain ⟨o1, w1, h1⟩ := h.put_same (n := j) (m := j) (idx := (tri j : Int) + j)
    (p := scale * c ^ j * (1 / scale * (sq j j).eval s))
    (q := -(scale * c ^ (j - 1)) * ((j : ℝ) * s * (1 / scale * (sq j j).eval s)))
    (D' := fun n m => m < j ∨ (m = j ∧ n < j + 1)) (le_refl _) (by omega) rfl
    (by rw [Sf_eq]; field_simp) (by rw [hself]; field_simp) (fun a b _ _ hab => by omega)
  rw [w1]
  simp only [Option.bind_some]
  have i1 : (tri j : Int) + j + j + 1 = (tri (j + 1) : Int) + j := by
    rw [show tri (j + 1) = tri j + (j + 1) from rfl]; push_cast; ring
  obtain ⟨o2, w2, h2⟩ := h1.put_same (n := j + 1) (m := j) (idx := (tri j : Int) + j + j + 1)
    (p := scale * c ^ j * (1 / scale * (sq (j + 1) j).eval s))
    (q := -(scale * c ^ (j - 1)) * (((j : ℝ) + 1) * s * (1 / scale * (sq (j + 1) j).eval s) -
      1 / scale * (G * (sq j j).eval s)))
    (D' := fun n m => m < j ∨ (m = j ∧ n < j + 2)) (by omega) (by omega) i1
    (by rw [Sf_eq]; field_simp) (by rw [hd1]; field_simp; ring) (fun a b _ _ hab => by omega)
  rw [w2]
  simp only [Option.bind_some]
  obtain ⟨z, e4, h4⟩ := forTo_inv
    (fun i (z : Zonal ℝ) => T z.o N (fun n m => m < j ∨ (m = j ∧ n < i)) (Sf s c) (Sd s c) ∧
      z.pm2 = 1 / scale * (sq (i - 2) j).eval s ∧ z.pm1 = 1 / scale * (sq (i - 1) j).eval s ∧
      z.idx = (tri i : Int) + j)
    (highDeg s (scale * c ^ j) (scale * c ^ (j - 1)) (presqrt Real.sqrt N) (prersqrt Real.sqrt N) j)
    (j + 2) N ⟨o2, 1 / scale * (sq j j).eval s, 1 / scale * (sq (j + 1) j).eval s,
      (tri j : Int) + j + j + 1 + (j + 2)⟩ (by omega)
    ⟨h2, rfl, rfl, by
      show (tri j : Int) + j + j + 1 + (j + 2) = (tri (j + 2) : Int) + j
      rw [show tri (j + 2) = tri j + (j + 1) + (j + 2) from rfl]; push_cast; ring⟩
    (by
      rintro i ⟨oo, a, b, idx⟩ hi hiN ⟨hT, ha, hb, hidx⟩
      obtain ⟨k, rfl⟩ : ∃ k, i = k + 2 := ⟨i - 2, by omega⟩
      replace ha : a = 1 / scale * (sq k j).eval s := ha
      replace hb : b = 1 / scale * (sq (k + 1) j).eval s := hb
      replace hidx : idx = (tri (k + 2) : Int) + j := hidx
      subst ha hb hidx
      obtain ⟨o', e, hT'⟩ := highDeg_spec hc hs j hj k (by omega) hiN hT
      exact ⟨_, e, hT', rfl, rfl, rfl⟩)
  rw [e4]
  refine ⟨z.o, ?_, h4.1.congr (fun a b _ _ hab => ⟨by omega, rfl, rfl⟩)⟩
  show some _ = some _
  congr 2
  · rw [← hdiag]
  · rw [show tri (j + 1) = tri j + (j + 1) from rfl]; push_cast; ring

theorem high_spec (hc : c ^ 2 = 1 - s ^ 2) (h0 : c ≠ 0) (hs : scale ≠ 0) (o : Out ℝ) (hN : 1 ≤ N)
    (hl : o.lp.length = tri (N + 1)) (hl' : o.ldp.length = tri (N + 1)) :
    ∃ o', high scale o N s c (presqrt Real.sqrt N) (prersqrt Real.sqrt N) = some o' ∧
      T o' N (fun _ _ => True) (Sf s c) (Sd s c) := by
  have h3 : 3 ≤ tri (N + 1) := by
    have := tri_le (show 2 ≤ N + 1 by omega); simp only [tri] at this ⊢; omega
  have g00 : Sf s c 0 0 = 1 := by rw [Sf_eq, sq_zero]; simp
  have d00 : Sd s c 0 0 = 0 := by rw [Sd_eq, sq_gq, gq_self]; simp
  have g10 : Sf s c 1 0 = s := by rw [Sf_eq, sq_one]; simp
  have d10 : Sd s c 1 0 = c := by
    rw [Sd_eq, sq_gq, gq_subdiag, rho_one_zero]; simp
  unfold high
  rw [wrI_eq (k := 0) (idx := 0) _ rfl (by omega)]
  simp only [Option.bind_eq_bind, Option.bind_some]
  rw [wrI_eq (k := 1) (idx := 1) _ rfl (by simp; omega)]
  simp only [Option.bind_some]
  rw [wrI_eq (k := 0) (idx := 0) _ rfl (by omega)]
  simp only [Option.bind_some]
  rw [wrI_eq (k := 1) (idx := 1) _ rfl (by simp; omega)]
  simp only [Option.bind_some]
  have hT0 : T ⟨(o.lp.set 0 1).set 1 s, (o.ldp.set 0 0).set 1 c⟩ N
      (fun n m => m = 0 ∧ n < 2) (Sf s c) (Sd s c) := by
    refine ⟨by simpa using hl, by simpa using hl', ?_⟩
    intro n m hm _ hn2
    have L : 0 < o.lp.length ∧ 1 < o.lp.length ∧ 0 < o.ldp.length ∧ 1 < o.ldp.length := by omega
    obtain ⟨a0, a1, b0, b1⟩ := L
    have hcc : (n = 0 ∧ m = 0) ∨ (n = 1 ∧ m = 0) := by omega
    rcases hcc with ⟨rfl, rfl⟩ | ⟨rfl, rfl⟩
    · simp [tri, List.getElem?_set, a0, b0, g00, d00]
    · simp [tri, List.getElem?_set, a1, b1, g10, d10]
  obtain ⟨z, e1, h1⟩ := forTo_inv
    (fun i (z : Zonal ℝ) => T z.o N (fun n m => m = 0 ∧ n < i) (Sf s c) (Sd s c) ∧
      z.pm2 = (sq (i - 2) 0).eval s ∧ z.pm1 = (sq (i - 1) 0).eval s ∧ z.idx = (tri i : Int))
    (highZonal s (1 / c)) 2 N ⟨⟨(o.lp.set 0 1).set 1 s, (o.ldp.set 0 0).set 1 c⟩, 1, s, 3⟩ (by omega)
    ⟨hT0, (sq_zero s).symm, (sq_one s).symm, rfl⟩
    (by
      rintro i ⟨oo, a, b, idx⟩ hi hiN ⟨hT, ha, hb, hidx⟩
      obtain ⟨k, rfl⟩ : ∃ k, i = k + 2 := ⟨i - 2, by omega⟩
      replace ha : a = (sq k 0).eval s := ha
      replace hb : b = (sq (k + 1) 0).eval s := hb
      replace hidx : idx = (tri (k + 2) : Int) := hidx
      subst ha hb hidx
      obtain ⟨o', e, hT'⟩ := highZonal_spec hc h0 k hiN hT
      exact ⟨_, e, hT', rfl, rfl, rfl⟩)
  rw [e1]
  have r1 := rd_presqrt (degree := N) (k := 2) (idx := 2) rfl (by omega)
  simp only [Option.bind_some, r1]
  obtain ⟨st, e2, h2⟩ := forBelow_inv
    (fun j (st : Sector ℝ) => T st.o N (fun _ m => m < j) (Sf s c) (Sd s c) ∧
      st.pmm = 1 / scale * (Real.sqrt ((2 * j : ℕ) : ℝ) * (sq j j).eval s) ∧
      st.pow = scale * c ^ (j - 1) ∧ st.idx0 = (tri j : Int) + j)
    (highOrder N s c (presqrt Real.sqrt N) (prersqrt Real.sqrt N)) 1 N
    ⟨z.o, 1 / scale * Real.sqrt ((2 : ℕ) : ℝ), scale, 2⟩ hN
    ⟨h1.1.congr (fun a b _ _ hab => ⟨by omega, rfl, rfl⟩),
      by show _ = _; rw [sq_one_one]; simp, by simp, rfl⟩
    (by
      rintro j ⟨oo, a, b, idx⟩ hj hjN ⟨hT, ha, hb, hidx⟩
      replace hb : b = scale * c ^ (j - 1) := hb
      replace hidx : idx = (tri j : Int) + j := hidx
      subst hb hidx
      obtain ⟨o', e, hT'⟩ := highOrder_spec hc hs j hj hjN a ha hT
      exact ⟨_, e, hT', rfl, rfl, rfl⟩)
  rw [e2]
  simp only [Option.bind_some]
  obtain ⟨hT, ha, hb, hidx⟩ := h2
  have r2 := rd_prersqrt (degree := N) (k := 2 * N) (idx := 2 * (N : Int)) (by push_cast; rfl) (by omega)
    (by omega)
  rw [show max 1 N = N by omega]
  simp only [r2, Option.bind_some]
  have q2 := (sqrt_nat_pos (k := 2 * N) (by omega)).ne'
  have e3 : st.pmm * (1 / Real.sqrt ((2 * N : ℕ) : ℝ)) = 1 / scale * (sq N N).eval s := by
    rw [ha]; field_simp
  have hself : Sd s c N N = -((N : ℝ) * c ^ (N - 1) * s * (sq N N).eval s) := by
    rw [Sd_eq, sq_gq, gq_self]; simp
  have hpow : st.pow * c = scale * c ^ N := by
    rw [hb]
    obtain ⟨i, rfl⟩ : ∃ i, N = i + 1 := ⟨N - 1, by omega⟩
    rw [show i + 1 - 1 = i from rfl]; ring
  rw [e3, hpow]
  exact hT.put_same (n := N) (m := N) (le_refl _) (le_refl _) hidx
    (by rw [Sf_eq]; field_simp) (by rw [hself, hb]; field_simp) (fun a b _ _ _ => by omega)

end Verif.Legendre
