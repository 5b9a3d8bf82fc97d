import Verif.Model.Legendre
import Verif.Lemmas.Buffer
import Verif.Lemmas.LegendreNorm

set_option linter.unusedSectionVars false

namespace Verif.Legendre

open Verif.Buf Verif.Spec Polynomial

/-- Number of the items with lower degrees. -/
def tri : Nat → Nat
  | 0 => 0
  | n + 1 => tri n + (n + 1)

theorem tri_mul (n : Nat) : tri n * 2 = n * (n + 1) := by
  induction n with
  | zero => rfl
  | succ n ih => simp only [tri]; linarith [ih]

theorem tri_div (i : Nat) : ((i : Int) * (i + 1)).tdiv 2 = (tri i : Int) := by
  have h : ((i : Int) * (i + 1)) = (tri i : Int) * 2 := by exact_mod_cast (tri_mul i).symm
  rw [h, Int.mul_tdiv_cancel _ (by norm_num)]

theorem tri_le {n k : Nat} (h : n ≤ k) : tri n ≤ tri k := by
  induction k with
  | zero => simp at h; subst h; exact le_refl _
  | succ k ih =>
    by_cases hk : n = k + 1
    · subst hk; exact le_refl _
    · have := ih (by omega); simp only [tri]; omega

theorem tri_inj {n m n' m' : Nat} (h : m ≤ n) (h' : m' ≤ n') (e : tri n + m = tri n' + m') :
    n = n' ∧ m = m' := by
  rcases Nat.lt_trichotomy n n' with hlt | heq | hgt
  · have := tri_le (show n + 1 ≤ n' from hlt); simp only [tri] at this; omega
  · subst heq; exact ⟨rfl, by omega⟩
  · have := tri_le (show n' + 1 ≤ n from hgt); simp only [tri] at this; omega

/-- The output buffers hold `g n m`, `d n m` for the degrees and orders satisfying `D`. -/
def T (o : Out ℝ) (N : Nat) (D : Nat → Nat → Prop) (g d : Nat → Nat → ℝ) : Prop :=
  o.lp.length = tri (N + 1) ∧ o.ldp.length = tri (N + 1) ∧
  ∀ n m, m ≤ n → n ≤ N → D n m → o.lp[tri n + m]? = some (g n m) ∧ o.ldp[tri n + m]? = some (d n m)

variable {o : Out ℝ} {N : Nat} {D D' : Nat → Nat → Prop} {g d g' d' : Nat → Nat → ℝ}

theorem T.rd (h : T o N D g d) {n m : Nat} {idx : Int} (hm : m ≤ n) (hn : n ≤ N) (hD : D n m)
    (hi : idx = (tri n : Int) + m) : rdI o.lp idx = some (g n m) := by
  rw [hi, show ((tri n : Int) + m) = ((tri n + m : Nat) : Int) by push_cast; rfl]
  simp only [rdI, Int.natCast_nonneg, if_true, Int.toNat_natCast, Buf.rd]
  exact (h.2.2 n m hm hn hD).1

theorem T.rd' (h : T o N D g d) {n m : Nat} {idx : Int} (hm : m ≤ n) (hn : n ≤ N) (hD : D n m)
    (hi : idx = (tri n : Int) + m) : rdI o.ldp idx = some (d n m) := by
  rw [hi, show ((tri n : Int) + m) = ((tri n + m : Nat) : Int) by push_cast; rfl]
  simp only [rdI, Int.natCast_nonneg, if_true, Int.toNat_natCast, Buf.rd]
  exact (h.2.2 n m hm hn hD).2

theorem wrI_eq {A : Type} {b : List A} {idx : Int} {k : Nat} (v : A) (hi : idx = (k : Int))
    (hk : k < b.length) : wrI b idx v = some (b.set k v) := by
  subst hi
  simp only [wrI, Int.natCast_nonneg, if_true, Int.toNat_natCast]
  exact wr_eq _ hk

theorem T.put (h : T o N D g d) {n m : Nat} {idx : Int} {p q : ℝ} (hm : m ≤ n) (hn : n ≤ N)
    (hi : idx = (tri n : Int) + m) (hp : p = g' n m) (hq : q = d' n m)
    (hD : ∀ a b, b ≤ a → a ≤ N → D' a b →
      (a = n ∧ b = m) ∨ (D a b ∧ g' a b = g a b ∧ d' a b = d a b)) :
    ∃ o', o.put idx p q = some o' ∧ T o' N D' g' d' := by
  have hlt : tri n + m < tri (N + 1) := by
    have := tri_le (show n + 1 ≤ N + 1 by omega); simp only [tri] at this ⊢; omega
  have hi' : idx = ((tri n + m : Nat) : Int) := by rw [hi]; push_cast; rfl
  have w1 := wrI_eq (b := o.lp) p hi' (by rw [h.1]; exact hlt)
  have w2 := wrI_eq (b := o.ldp) q hi' (by rw [h.2.1]; exact hlt)
  refine ⟨⟨o.lp.set (tri n + m) p, o.ldp.set (tri n + m) q⟩, ?_, by simpa using h.1,
    by simpa using h.2.1, ?_⟩
  · simp only [Out.put, w1, w2]; rfl
  · intro a b hba haN hDab
    simp only [List.getElem?_set]
    by_cases hk : tri n + m = tri a + b
    · obtain ⟨rfl, rfl⟩ := tri_inj hm hba hk
      rw [h.1, h.2.1]
      simp [hlt, hp, hq]
    · rw [if_neg hk, if_neg hk]
      rcases hD a b hba haN hDab with ⟨rfl, rfl⟩ | ⟨h1, h2, h3⟩
      · exact absurd rfl hk
      · rw [h2, h3]; exact h.2.2 a b hba haN h1

theorem T.put_same (h : T o N D g d) {n m : Nat} {idx : Int} {p q : ℝ} (hm : m ≤ n) (hn : n ≤ N)
    (hi : idx = (tri n : Int) + m) (hp : p = g n m) (hq : q = d n m)
    (hD : ∀ a b, b ≤ a → a ≤ N → D' a b → (a = n ∧ b = m) ∨ D a b) :
    ∃ o', o.put idx p q = some o' ∧ T o' N D' g d :=
  h.put hm hn hi hp hq (fun a b hb ha hab => (hD a b hb ha hab).imp id (fun h => ⟨h, rfl, rfl⟩))

theorem T.scale (h : T o N D g d) {n m : Nat} {idx : Int} {f : ℝ} (hm : m ≤ n) (hn : n ≤ N)
    (hi : idx = (tri n : Int) + m) (hDn : D n m) (hp : g n m * f = g' n m) (hq : d n m * f = d' n m)
    (hD : ∀ a b, b ≤ a → a ≤ N → D' a b →
      (a = n ∧ b = m) ∨ (D a b ∧ g' a b = g a b ∧ d' a b = d a b)) :
    ∃ o', o.scale idx f = some o' ∧ T o' N D' g' d' := by
  simp only [Out.scale, h.rd hm hn hDn hi, h.rd' hm hn hDn hi, Option.bind_eq_bind, Option.bind_some]
  exact h.put hm hn hi hp hq hD

theorem T.congr (h : T o N D g d)
    (hD : ∀ a b, b ≤ a → a ≤ N → D' a b → D a b ∧ g' a b = g a b ∧ d' a b = d a b) :
    T o N D' g' d' := by
  refine ⟨h.1, h.2.1, fun a b hb ha hab => ?_⟩
  obtain ⟨h1, h2, h3⟩ := hD a b hb ha hab
  rw [h2, h3]; exact h.2.2 a b hb ha h1

/-! ### Tables of square roots -/

theorem rd_presqrt {degree k : Nat} {idx : Int} (hi : idx = (k : Int)) (hk : k < 2 * degree + 2) :
    rdI (presqrt Real.sqrt degree) idx = some (Real.sqrt (k : ℝ)) := by
  subst hi
  simp [rdI, Buf.rd, presqrt, hk]

theorem rd_prersqrt {degree k : Nat} {idx : Int} (hi : idx = (k : Int)) (hk : k < 2 * degree + 2)
    (h0 : 0 < k) : rdr (prersqrt Real.sqrt degree) idx = some (1 / Real.sqrt (k : ℝ)) := by
  subst hi
  simp [rdr, rdI, Buf.rd, prersqrt, hk, h0.ne']

/-! ### Low degrees -/

/-- Gauss normalised function of sine and cosine. -/
noncomputable def Gf (s c : ℝ) (n m : Nat) : ℝ := c ^ m * (gq n m).eval s

/-- Its derivative with respect to the latitude. -/
noncomputable def Gd (s c : ℝ) (n m : Nat) : ℝ :=
  -((m : ℝ) * c ^ (m - 1) * s * (gq n m).eval s) + c ^ (m + 1) * (derivative (gq n m)).eval s

theorem Gf_rec (s c : ℝ) (k m : Nat) (h : m ≤ k) : Gf s c (k + 2) m = s * Gf s c (k + 1) m -
    (1 / ((2 * (k : ℝ) + 3) * (2 * k + 1)) * (((k : ℝ) + 1) * (k + 1) - m * m)) * Gf s c k m := by
  have hr := congrArg (eval s) (gq_rec k m h)
  simp only [eval_sub, eval_mul, eval_X, eval_C] at hr
  simp only [Gf]; rw [hr]; ring

theorem Gd_rec (s c : ℝ) (k m : Nat) (h : m ≤ k) : Gd s c (k + 2) m = s * Gd s c (k + 1) m -
    (1 / ((2 * (k : ℝ) + 3) * (2 * k + 1)) * (((k : ℝ) + 1) * (k + 1) - m * m)) * Gd s c k m +
    c * Gf s c (k + 1) m := by
  have hr := congrArg (eval s) (gq_rec k m h)
  have hd := congrArg (fun p => eval s (derivative p)) (gq_rec k m h)
  simp only [derivative_sub, derivative_mul, derivative_X, derivative_C, eval_sub, eval_mul, eval_X,
    eval_C, eval_add, eval_one, eval_zero, one_mul, zero_mul, zero_add] at hr hd
  simp only [Gf, Gd]; rw [hr, hd]; ring

theorem Gf_self (s c : ℝ) (n : Nat) : Gf s c n n = c ^ n := by simp [Gf, gq_self]
theorem Gd_self (s c : ℝ) (n : Nat) : Gd s c n n = -((n : ℝ) * c ^ (n - 1) * s) := by
  simp [Gd, gq_self]
theorem Gf_sub (s c : ℝ) (n : Nat) : Gf s c (n + 1) n = s * Gf s c n n := by
  rw [Gf_self]; simp [Gf, gq_subdiag]; ring
theorem Gd_sub (s c : ℝ) (n : Nat) : Gd s c (n + 1) n = s * Gd s c n n + c * Gf s c n n := by
  rw [Gd_self, Gf_self]; simp [Gd, gq_subdiag]; ring
theorem Gf_succ (s c : ℝ) (n : Nat) : Gf s c (n + 1) (n + 1) = c * Gf s c n n := by
  rw [Gf_self, Gf_self]; ring
theorem Gd_succ (s c : ℝ) (n : Nat) : Gd s c (n + 1) (n + 1) = c * Gd s c n n - s * Gf s c n n := by
  rw [Gd_self, Gd_self, Gf_self]
  rcases n with _ | n
  · simp
  · push_cast; ring

theorem lowRow_spec (s c : ℝ) (k : Nat) (hk : k + 2 ≤ N)
    (h : T o N (fun n _ => n < k + 2) (Gf s c) (Gd s c)) :
    ∃ o', lowRow s c (k + 2) o = some o' ∧ T o' N (fun n _ => n < k + 2 + 1) (Gf s c) (Gd s c) := by
  have t2 : tri (k + 2) = tri (k + 1) + (k + 2) := rfl
  have t1 : tri (k + 1) = tri k + (k + 1) := rfl
  unfold lowRow
  simp only [tri_div (k + 2)]
  obtain ⟨o1, e1, h1⟩ := forBelow_inv
    (fun j o => T o N (fun n m => n < k + 2 ∨ (n = k + 2 ∧ m < j)) (Gf s c) (Gd s c))
    (fun j (o : Out ℝ) => do
      let idx0 : Int := (tri (k + 2) : Int) + j
      let idx1 : Int := (tri (k + 2) : Int) + j - (k + 2 : Nat)
      let idx2 : Int := (tri (k + 2) : Int) + j - (k + 2 : Nat) - (k + 2 : Nat) + 1
      let w : ℝ := (1 / (((2 * ((k + 2 : Nat) : Int) - 1) * (2 * ((k + 2 : Nat) : Int) - 3) : Int) : ℝ)) *
        (((((k + 2 : Nat) : Int) - 1) * (((k + 2 : Nat) : Int) - 1) - (j : Int) * j : Int) : ℝ)
      let p1 ← rdI o.lp idx1
      let p2 ← rdI o.lp idx2
      let d1 ← rdI o.ldp idx1
      let d2 ← rdI o.ldp idx2
      o.put idx0 (s * p1 - w * p2) (s * d1 - w * d2 + c * p1)) 0 (k + 2 - 1) o (by omega)
    (h.congr (fun a b _ _ hab => ⟨by omega, rfl, rfl⟩))
    (by
      intro j oo _ hj hoo
      have i1 : (tri (k + 2) : Int) + j - (k + 2 : Nat) = (tri (k + 1) : Int) + j := by
        rw [t2]; push_cast; ring
      have i2 : (tri (k + 2) : Int) + j - (k + 2 : Nat) - (k + 2 : Nat) + 1 = (tri k : Int) + j := by
        rw [t2, t1]; push_cast; ring
      simp only [hoo.rd (n := k + 1) (m := j) (by omega) (by omega) (by omega) i1,
        hoo.rd (n := k) (m := j) (by omega) (by omega) (by omega) i2,
        hoo.rd' (n := k + 1) (m := j) (by omega) (by omega) (by omega) i1,
        hoo.rd' (n := k) (m := j) (by omega) (by omega) (by omega) i2,
        Option.bind_eq_bind, Option.bind_some]
      refine hoo.put_same (n := k + 2) (m := j) (by omega) hk rfl ?_ ?_ (fun a b _ _ hab => by omega)
      · rw [Gf_rec s c k j (by omega)]
        congr 2
        push_cast
        congr 2 <;> ring
      · rw [Gd_rec s c k j (by omega)]
        congr 3
        push_cast
        congr 2 <;> ring)
  simp only [Option.bind_eq_bind] at e1 ⊢
  rw [e1]
  simp only [Option.bind_some]
  have i1 : (tri (k + 2) : Int) - 1 = (tri (k + 1) : Int) + (k + 1 : Nat) := by
    rw [t2]; push_cast; ring
  simp only [h1.rd (n := k + 1) (m := k + 1) (by omega) (by omega) (by omega) i1,
    h1.rd' (n := k + 1) (m := k + 1) (by omega) (by omega) (by omega) i1, Option.bind_some]
  obtain ⟨o2, e2, h2⟩ := h1.put_same (n := k + 2) (m := k + 1)
    (D' := fun n m => n < k + 2 ∨ (n = k + 2 ∧ m < k + 2))
    (idx := (tri (k + 2) : Int) + (k + 2 : Nat) - 1)
    (by omega) hk (by push_cast; ring) (Gf_sub s c (k + 1)).symm (Gd_sub s c (k + 1)).symm
    (fun a b _ _ hab => by omega)
  simp only [e2, Option.bind_some]
  exact h2.put_same (n := k + 2) (m := k + 2) (by omega) hk rfl (Gf_succ s c (k + 1)).symm
    (Gd_succ s c (k + 1)).symm (fun a b _ _ hab => by omega)

/-- Schmidt normalised values. -/
noncomputable def Sf (s c : ℝ) (n m : Nat) : ℝ := rho n m * Gf s c n m
noncomputable def Sd (s c : ℝ) (n m : Nat) : ℝ := rho n m * Gd s c n m

/-- Normalised up to the item `(i, j)` (excluded). -/
noncomputable def upTo (F G : Nat → Nat → ℝ) (i j n m : Nat) : ℝ :=
  if n < i ∨ (n = i ∧ m < j) then F n m else G n m

theorem upTo_ne (F G : Nat → Nat → ℝ) {i j a b : Nat} (h : ¬ (a = i ∧ b = j)) :
    upTo F G i (j + 1) a b = upTo F G i j a b := by
  unfold upTo
  by_cases h1 : a < i ∨ (a = i ∧ b < j)
  · rw [if_pos h1, if_pos (by omega)]
  · rw [if_neg h1, if_neg (by omega)]

theorem upTo_self (F G : Nat → Nat → ℝ) (i j : Nat) : upTo F G i j i j = G i j := by
  unfold upTo; rw [if_neg (by omega)]

theorem upTo_done (F G : Nat → Nat → ℝ) (i j : Nat) : upTo F G i (j + 1) i j = F i j := by
  unfold upTo; rw [if_pos (by omega)]

theorem upTo_next (F G : Nat → Nat → ℝ) {i a b : Nat} (h : b ≤ a) :
    upTo F G (i + 1) 0 a b = upTo F G i (i + 1) a b := by
  unfold upTo
  by_cases h1 : a < i ∨ (a = i ∧ b < i + 1)
  · rw [if_pos h1, if_pos (by omega)]
  · rw [if_neg h1, if_neg (by omega)]

theorem normItem (s c : ℝ) {i j : Nat} (hj : j ≤ i) (hi : i ≤ N) {idx : Int} (hidx : idx = (tri i : Int) + j)
    {f : ℝ} (hf : f = rho i j)
    (h : T o N (fun _ _ => True) (upTo (Sf s c) (Gf s c) i j) (upTo (Sd s c) (Gd s c) i j)) :
    ∃ o', o.scale idx f = some o' ∧
      T o' N (fun _ _ => True) (upTo (Sf s c) (Gf s c) i (j + 1)) (upTo (Sd s c) (Gd s c) i (j + 1)) := by
  refine h.scale hj hi hidx trivial ?_ ?_ ?_
  · rw [upTo_self, upTo_done, Sf, hf]; ring
  · rw [upTo_self, upTo_done, Sd, hf]; ring
  · intro a b _ _ _
    by_cases hab : a = i ∧ b = j
    · exact Or.inl hab
    · exact Or.inr ⟨trivial, upTo_ne _ _ hab, upTo_ne _ _ hab⟩

theorem lowNorm_spec (s c : ℝ) (i : Nat) (h2 : 2 ≤ i) (hi : i ≤ N)
    (h : T o N (fun _ _ => True) (upTo (Sf s c) (Gf s c) i 0) (upTo (Sd s c) (Gd s c) i 0)) :
    ∃ o', lowNorm (presqrt Real.sqrt N) (prersqrt Real.sqrt N) i (o, rho (i - 1) 0) =
        some (o', rho i 0) ∧
      T o' N (fun _ _ => True) (upTo (Sf s c) (Gf s c) (i + 1) 0) (upTo (Sd s c) (Gd s c) (i + 1) 0) := by
  unfold lowNorm
  simp only [tri_div]
  have q0 : rho (i - 1) 0 * (((2 * (i : Int) - 1 : Int) : ℝ) / (i : ℝ)) = rho i 0 := by
    obtain ⟨k, rfl⟩ : ∃ k, i = k + 1 := ⟨i - 1, by omega⟩
    rw [rho_zero k, Nat.add_sub_cancel]; push_cast; congr 2; ring
  obtain ⟨o1, e1, h1⟩ := normItem s c (j := 0) (by omega) hi (idx := (tri i : Int)) (by simp) q0 h
  rw [e1]
  have r1 := rd_presqrt (degree := N) (k := 2 * i) (idx := 2 * (i : Int)) (by push_cast; rfl) (by omega)
  have r2 := rd_prersqrt (degree := N) (k := i + 1) (idx := (i : Int) + 1) (by push_cast; rfl)
    (by omega) (by omega)
  simp only [Option.bind_eq_bind, Option.bind_some, r1, r2]
  have q1 : rho i 0 * Real.sqrt ((2 * i : ℕ) : ℝ) * (1 / Real.sqrt ((i + 1 : ℕ) : ℝ)) = rho i 1 :=
    (rho_one i (by omega)).symm
  rw [q0, q1]
  obtain ⟨o2, e2, h2'⟩ := normItem s c (j := 1) (by omega) hi (idx := (tri i : Int) + 1) (by simp)
    rfl h1
  rw [e2]
  simp only [Option.bind_some]
  obtain ⟨st, e3, h3⟩ := forTo_inv
    (fun j (st : Out ℝ × ℝ) => T st.1 N (fun _ _ => True) (upTo (Sf s c) (Gf s c) i j)
      (upTo (Sd s c) (Gd s c) i j) ∧ st.2 = rho i (j - 1))
    (fun j (st : Out ℝ × ℝ) => do
      let a ← rdI (presqrt Real.sqrt N) ((i : Int) - j + 1)
      let b ← rdr (prersqrt Real.sqrt N) (i + j)
      let sqn1 := st.2 * (a * b)
      let o ← st.1.scale ((tri i : Int) + j) sqn1
      return (o, sqn1)) 2 i (o2, rho i 1) (by omega) ⟨h2', rfl⟩
    (by
      rintro j ⟨oo, q⟩ hj hji ⟨hT, hq⟩
      replace hT : T oo N (fun _ _ => True) (upTo (Sf s c) (Gf s c) i j)
        (upTo (Sd s c) (Gd s c) i j) := hT
      replace hq : q = rho i (j - 1) := hq
      have r3 := rd_presqrt (degree := N) (k := i - (j - 1)) (idx := (i : Int) - j + 1) (by omega)
        (by omega)
      have r4 := rd_prersqrt (degree := N) (k := i + (j - 1) + 1) (idx := (i : Int) + j) (by omega)
        (by omega) (by omega)
      have q3 := rho_succ i (j - 1) (by omega) (by omega)
      rw [show j - 1 + 1 = j by omega, ← hq] at q3
      obtain ⟨o4, e4, h4⟩ := normItem s c hji hi (idx := (tri i : Int) + j) rfl rfl hT
      refine ⟨(o4, rho i j), ?_, h4, rfl⟩
      simp only [r3, r4, Option.bind_eq_bind, Option.bind_some, ← q3, e4]
      rfl)
  simp only [Option.bind_eq_bind] at e3
  rw [e3]
  exact ⟨st.1, rfl, h3.1.congr (fun a b hb _ _ => ⟨trivial, upTo_next _ _ hb, upTo_next _ _ hb⟩)⟩

theorem low_spec (s c : ℝ) (o : Out ℝ) (hN : 1 ≤ N) (hl : o.lp.length = tri (N + 1))
    (hl' : o.ldp.length = tri (N + 1)) :
    ∃ o', low o N s c (presqrt Real.sqrt N) (prersqrt Real.sqrt N) = some o' ∧
      T o' N (fun _ _ => True) (Sf s c) (Sd s c) := by
  have h3 : 3 ≤ tri (N + 1) := by
    have := tri_le (show 2 ≤ N + 1 by omega); simp only [tri] at this ⊢; omega
  have g00 : Gf s c 0 0 = 1 := by rw [Gf_self]; simp
  have d00 : Gd s c 0 0 = 0 := by rw [Gd_self]; simp
  have g10 : Gf s c 1 0 = s := by rw [Gf_sub, g00]; simp
  have d10 : Gd s c 1 0 = c := by rw [Gd_sub, g00, d00]; simp
  have g11 : Gf s c 1 1 = c := by rw [Gf_succ, g00]; simp
  have d11 : Gd s c 1 1 = -s := by rw [Gd_succ, g00, d00]; simp
  unfold low
  rw [wrI_eq (k := 0) (idx := 0) _ rfl (by omega)]
  simp only [Option.bind_eq_bind, Option.bind_some]
  rw [wrI_eq (k := 1) (idx := 1) _ rfl (by simp; omega)]
  simp only [Option.bind_some]
  rw [wrI_eq (k := 2) (idx := 2) _ rfl (by simp; omega)]
  simp only [Option.bind_some]
  rw [wrI_eq (k := 0) (idx := 0) _ rfl (by omega)]
  simp only [Option.bind_some]
  rw [wrI_eq (k := 1) (idx := 1) _ rfl (by simp; omega)]
  simp only [Option.bind_some]
  rw [wrI_eq (k := 2) (idx := 2) _ rfl (by simp; omega)]
  simp only [Option.bind_some]
  have hT0 : T ⟨((o.lp.set 0 1).set 1 s).set 2 c, ((o.ldp.set 0 0).set 1 c).set 2 (-s)⟩ N
      (fun n _ => n < 2) (Gf s c) (Gd s c) := by
    refine ⟨by simpa using hl, by simpa using hl', ?_⟩
    intro n m hm _ hn2
    have L : 0 < o.lp.length ∧ 1 < o.lp.length ∧ 2 < o.lp.length ∧ 0 < o.ldp.length ∧
      1 < o.ldp.length ∧ 2 < o.ldp.length := by omega
    obtain ⟨a0, a1, a2, b0, b1, b2⟩ := L
    have hc : (n = 0 ∧ m = 0) ∨ (n = 1 ∧ m = 0) ∨ (n = 1 ∧ m = 1) := by omega
    rcases hc with ⟨rfl, rfl⟩ | ⟨rfl, rfl⟩ | ⟨rfl, rfl⟩
    · simp [tri, List.getElem?_set, a0, b0, g00, d00]
    · simp [tri, List.getElem?_set, a1, b1, g10, d10]
    · simp [tri, List.getElem?_set, a2, b2, g11, d11]
  obtain ⟨o1, e1, h1⟩ := forTo_inv (fun i o => T o N (fun n _ => n < i) (Gf s c) (Gd s c))
    (lowRow s c) 2 N _ (by omega) hT0
    (by
      intro i oo hi hiN hoo
      obtain ⟨k, rfl⟩ : ∃ k, i = k + 2 := ⟨i - 2, by omega⟩
      exact lowRow_spec s c k hiN hoo)
  rw [e1]
  simp only [Option.bind_some]
  have hT1 : T o1 N (fun _ _ => True) (upTo (Sf s c) (Gf s c) 2 0) (upTo (Sd s c) (Gd s c) 2 0) := by
    refine h1.congr (fun a b hb ha _ => ⟨by omega, ?_, ?_⟩)
    all_goals
      unfold upTo
      split
      · have hc : (a = 0 ∧ b = 0) ∨ (a = 1 ∧ b = 0) ∨ (a = 1 ∧ b = 1) := by omega
        simp only [Sf, Sd]
        rcases hc with ⟨rfl, rfl⟩ | ⟨rfl, rfl⟩ | ⟨rfl, rfl⟩
        · rw [rho_zero_zero, one_mul]
        · rw [rho_one_zero, one_mul]
        · rw [rho_one_one, one_mul]
      · rfl
  obtain ⟨st, e2, h2⟩ := forTo_inv
    (fun i (st : Out ℝ × ℝ) => T st.1 N (fun _ _ => True) (upTo (Sf s c) (Gf s c) i 0)
      (upTo (Sd s c) (Gd s c) i 0) ∧ st.2 = rho (i - 1) 0)
    (lowNorm (presqrt Real.sqrt N) (prersqrt Real.sqrt N)) 2 N (o1, 1) (by omega)
    ⟨hT1, rho_one_zero.symm⟩
    (by
      rintro i ⟨oo, q⟩ hi hiN ⟨hT, hq⟩
      replace hq : q = rho (i - 1) 0 := hq
      subst hq
      obtain ⟨o4, e4, h4⟩ := lowNorm_spec s c i hi hiN hT
      exact ⟨_, e4, h4, rfl⟩)
  rw [e2]
  refine ⟨st.1, rfl, h2.1.congr (fun a b hb ha _ => ⟨trivial, ?_, ?_⟩)⟩
  · unfold upTo; rw [if_pos (by omega)]
  · unfold upTo; rw [if_pos (by omega)]

end Verif.Legendre
