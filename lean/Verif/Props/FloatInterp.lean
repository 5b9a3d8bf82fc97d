/-
C72: linear interpolation in double precision.
-/
import Verif.Props.Interp
import Verif.Spec.Line
import Verif.Spec.Binary64
import Verif.Model.FloatTime
import Mathlib.Tactic.LinearCombination

set_option linter.unusedSectionVars false

namespace Verif.Spec.Nearest

/-- The difference of two numbers of the format has a relative error only. -/
theorem sub_rel {rnd : ℝ → ℝ} (R : Nearest rnd) {x y : ℝ} (hx : x ∈ F64) (hy : y ∈ F64) :
    |rnd (x - y) - (x - y)| ≤ 2 ^ (-53 : ℤ) * |x - y| := by
  by_cases h : |x - y| ≤ 2 ^ (-1021 : ℤ)
  · have hm : x - y ∈ F64 := by
      obtain ⟨a, rfl⟩ := F64.multiple hx
      obtain ⟨b, rfl⟩ := F64.multiple hy
      refine ⟨a - b, -1074, ?_, le_rfl, by push_cast; ring⟩
      have hp : (0 : ℝ) < 2 ^ (-1074 : ℤ) := by positivity
      rw [← sub_mul, abs_mul, abs_of_pos hp] at h
      have e : (2 : ℝ) ^ (-1021 : ℤ) = 2 ^ 53 * 2 ^ (-1074 : ℤ) := by
        rw [← zpow_natCast, ← zpow_add₀ (by norm_num)]
        norm_num
      rw [e] at h
      have := le_of_mul_le_mul_right h hp
      exact_mod_cast this
    rw [R.fixed hm, sub_self, abs_zero]
    positivity
  · push Not at h
    have h0 : 0 < |x - y| := lt_trans (by positivity) h
    set k := Int.log 2 |x - y| with hk
    have h1 : (2 : ℝ) ^ k ≤ |x - y| := by
      have := Int.zpow_log_le_self (b := 2) (by norm_num) h0
      exact_mod_cast this
    have h2 : |x - y| < 2 ^ (k + 1) := by
      have := Int.lt_zpow_succ_log_self (b := 2) (by norm_num) |x - y|
      exact_mod_cast this
    have h3 : -1021 ≤ k + 1 := by
      by_contra hc
      push Not at hc
      have : (2 : ℝ) ^ (k + 1) ≤ 2 ^ (-1021 : ℤ) := zpow_le_zpow_right₀ (by norm_num) hc.le
      linarith
    have h4 := R.err h3 h2.le
    have e : (2 : ℝ) ^ (k + 1 - 54) = 2 ^ (-53 : ℤ) * 2 ^ k := by
      rw [← zpow_add₀ (by norm_num)]
      congr 1
      ring
    rw [e] at h4
    exact h4.trans (mul_le_mul_of_nonneg_left h1 (by positivity))

end Verif.Spec.Nearest

namespace Verif.Props

open Verif.Bisect Verif.Interp Verif.FloatTime Verif.Spec

/-- The value computed from the two nodes. -/
noncomputable def blendF (rnd : ℝ → ℝ) (v0 c0 v1 c1 x : ℝ) : ℝ :=
  rnd (rnd (rnd (1 - rnd (rnd (x - v0) / rnd (v1 - v0))) * c0) + rnd (rnd (rnd (x - v0) / rnd (v1 - v0)) * c1))

theorem interpF_at (rnd : ℝ → ℝ) (v c : List ℝ) (hs : v.Pairwise (· < ·)) (hl : v.length = c.length)
    (hn : v.length < 2 ^ 64) (x : ℝ) (k : Nat) (hk : k + 1 < v.length)
    (hx : (v[k] ≤ x ∨ k = 0) ∧ (x < v[k + 1] ∨ k + 2 = v.length)) :
    interp1F rnd x v c = some (blendF rnd v[k] (c[k]'(by omega)) v[k + 1] (c[k + 1]'(by omega)) x) := by
  have hlt : ∀ i j (hi : i < v.length) (hj : j < v.length), i < j → v[i] < v[j] := by
    intro i j hi hj h
    exact List.pairwise_iff_getElem.mp hs i j hi hj h
  obtain ⟨i, h1, h2, h3, h4⟩ := bisectRightP_full (fun a : ℝ => decide (a ≤ x)) v (by
    intro j k hk hjk h
    rcases Nat.eq_or_lt_of_le hjk with rfl | hj
    · exact h
    · have := hlt j k (by omega) hk hj
      simp only [decide_eq_true_eq] at h ⊢
      linarith)
  simp only [decide_eq_true_eq] at h4
  have hidx : clip i 0 (sizeSub v.length 2) = (k : Int) := by
    rw [sizeSub_eq _ _ (by omega) hn]
    have c1 : (k : Int) ≤ i ∨ k = 0 := by
      rcases hx.1 with h | h
      · exact Or.inl ((h4 k (by omega)).mp h)
      · exact Or.inr h
    have c2 : i ≤ k ∨ k + 2 = v.length := by
      rcases hx.2 with h | h
      · left
        by_contra hc
        have := (h4 (k + 1) hk).mpr (by omega)
        linarith
      · exact Or.inr h
    unfold clip
    split_ifs <;> push_cast at * <;> omega
  unfold interp1F
  rw [h1]
  simp only [Option.bind_eq_bind, Option.bind_some, hidx]
  rw [rd_eq v k (by omega) (by omega), rd_eq v (k + 1) (by omega) (by omega), rd_eq c k (by omega) (by omega),
    rd_eq c (k + 1) (by omega) (by omega)]
  simp only [Option.bind_some, Int.toNat_natCast, show ((k : Int) + 1).toNat = k + 1 by omega]
  rfl

/-- The interval used at `x`. -/
theorem exists_interval (v : List ℝ) (hs : v.Pairwise (· < ·)) (h2 : 2 ≤ v.length) (x : ℝ) :
    ∃ (k : Nat) (hk : k + 1 < v.length), (v[k] ≤ x ∨ k = 0) ∧ (x < v[k + 1] ∨ k + 2 = v.length) := by
  have hlt : ∀ i j (hi : i < v.length) (hj : j < v.length), i < j → v[i] < v[j] := by
    intro i j hi hj h
    exact List.pairwise_iff_getElem.mp hs i j hi hj h
  obtain ⟨i, h1, h2, h3, h4⟩ := bisectRightP_full (fun a : ℝ => decide (a ≤ x)) v (by
    intro j k hk hjk h
    rcases Nat.eq_or_lt_of_le hjk with rfl | hj
    · exact h
    · have := hlt j k (by omega) hk hj
      simp only [decide_eq_true_eq] at h ⊢
      linarith)
  simp only [decide_eq_true_eq] at h4
  rcases lt_or_ge i 0 with hi | hi
  · refine ⟨0, by omega, Or.inr rfl, Or.inl ?_⟩
    by_contra hc
    push Not at hc
    have := (h4 1 (by omega)).mp hc
    omega
  · rcases lt_or_ge (i + 1) v.length with hl | hl
    · refine ⟨i.toNat, by omega, Or.inl ((h4 _ (by omega)).mpr (by omega)), Or.inl ?_⟩
      by_contra hc
      push Not at hc
      have := (h4 (i.toNat + 1) (by omega)).mp hc
      omega
    · refine ⟨v.length - 2, by omega, Or.inl ((h4 _ (by omega)).mpr (by omega)), Or.inr (by omega)⟩

/-- C72: without rounding this is the function `interp` of Model/Interp.lean. -/
theorem C72_exact (v c : List ℝ) (hs : v.Pairwise (· < ·)) (hl : v.length = c.length) (hn : v.length < 2 ^ 64)
    (h2 : 2 ≤ v.length) (x : ℝ) :
    ∃ y, interp1F id x v c = some y ∧ interp .c1 true (.fin x) (v.map .fin) (c.map .fin) = .ok (.fin y) := by
  obtain ⟨k, hk, hx⟩ := exists_interval v hs h2 x
  have hlt : v[k] < v[k + 1] := List.pairwise_iff_getElem.mp hs k (k + 1) (by omega) hk (by omega)
  have hb : blendF id v[k] (c[k]'(by omega)) v[k + 1] (c[k + 1]'(by omega)) x =
      line v[k] (c[k]'(by omega)) v[k + 1] (c[k + 1]'(by omega)) x := by
    unfold blendF line
    simp only [id]
    have : v[k + 1] - v[k] ≠ 0 := by intro h; linarith
    field_simp
    ring
  refine ⟨_, interpF_at id v c hs hl hn x k hk hx, ?_⟩
  rw [hb]
  rcases le_or_gt v[k] x with h1 | h1
  · rcases le_or_gt x v[k + 1] with h3 | h3
    · exact C02_linear_between v c hs hl hn true x k hk h1 h3
    · have hk2 : k + 2 = v.length := by
        rcases hx.2 with h | h
        · linarith
        · exact h
      have := (C02_extrapolated v c hs hl hn h2 x).2 (by simpa [← hk2] using h3)
      simpa [← hk2] using this
  · have hk0 : k = 0 := by
      rcases hx.1 with h | h
      · linarith
      · exact h
    subst hk0
    exact (C02_extrapolated v c hs hl hn h2 x).1 h1

section
variable {rnd : ℝ → ℝ} (R : Nearest rnd)
include R

theorem blend_left {v0 v1 c0 c1 : ℝ} (h0 : v0 ∈ F64) (h1 : v1 ∈ F64) (hv : v0 < v1) (hc : c0 ∈ F64) :
    blendF rnd v0 c0 v1 c1 v0 = c0 := by
  unfold blendF
  rw [sub_self, R.zero, zero_div, R.zero, sub_zero, R.one, one_mul, zero_mul, R.zero, add_zero, R.fixed hc, R.fixed hc]

theorem blend_right {v0 v1 c0 c1 : ℝ} (h0 : v0 ∈ F64) (h1 : v1 ∈ F64) (hv : v0 < v1) (hc : c1 ∈ F64) :
    blendF rnd v0 c0 v1 c1 v1 = c1 := by
  unfold blendF
  rw [div_self (ne_of_gt (R.sub_pos h0 h1 hv)), R.one, sub_self, R.zero, zero_mul, R.zero, one_mul, zero_add,
    R.fixed hc, R.fixed hc]

/-- C72: interpolation at a node gives exactly the value of the node in double precision, also
at the last node. -/
theorem C72_nodes (v c : List ℝ) (hs : v.Pairwise (· < ·)) (hl : v.length = c.length) (hn : v.length < 2 ^ 64)
    (h2 : 2 ≤ v.length) (hv : ∀ a ∈ v, a ∈ F64) (hc : ∀ a ∈ c, a ∈ F64) (k : Nat) (hk : k < v.length) :
    interp1F rnd v[k] v c = some (c[k]'(by omega)) := by
  have hlt : ∀ i j (hi : i < v.length) (hj : j < v.length), i < j → v[i] < v[j] := by
    intro i j hi hj h
    exact List.pairwise_iff_getElem.mp hs i j hi hj h
  rcases Nat.lt_or_ge (k + 1) v.length with h | h
  · rw [interpF_at rnd v c hs hl hn v[k] k h ⟨Or.inl le_rfl, Or.inl (hlt _ _ _ _ (by omega))⟩,
      blend_left R (hv _ (List.getElem_mem _)) (hv _ (List.getElem_mem _)) (hlt _ _ _ _ (by omega))
        (hc _ (List.getElem_mem _))]
  · obtain ⟨j, rfl⟩ : ∃ j, k = j + 1 := ⟨k - 1, by omega⟩
    rw [interpF_at rnd v c hs hl hn v[j + 1] j hk ⟨Or.inl (hlt _ _ _ _ (by omega)).le, Or.inr (by omega)⟩,
      blend_right R (hv _ (List.getElem_mem _)) (hv _ (List.getElem_mem _)) (hlt _ _ _ _ (by omega))
        (hc _ (List.getElem_mem _))]

/-- The computed weights. -/
theorem weightsF {v0 v1 x : ℝ} (h0 : v0 ∈ F64) (h1 : v1 ∈ F64) (hx : x ∈ F64) (hv : v0 < v1) (l : v0 ≤ x) (u : x ≤ v1) :
    0 ≤ rnd (rnd (x - v0) / rnd (v1 - v0)) ∧ rnd (rnd (x - v0) / rnd (v1 - v0)) ≤ 1 ∧
    |rnd (rnd (x - v0) / rnd (v1 - v0)) - (x - v0) / (v1 - v0)| ≤ 3 * 2 ^ (-53 : ℤ) := by
  have hd := R.sub_pos h0 h1 hv
  have hn : 0 ≤ rnd (x - v0) := R.nonneg (by linarith)
  have hle : rnd (x - v0) ≤ rnd (v1 - v0) := R.mono (by linarith)
  have q0 : 0 ≤ rnd (x - v0) / rnd (v1 - v0) := div_nonneg hn hd.le
  have q1 : rnd (x - v0) / rnd (v1 - v0) ≤ 1 := (div_le_one hd).mpr hle
  refine ⟨R.nonneg q0, R.le_of_le F64.one q1, ?_⟩
  have e1 := R.sub_rel hx h0
  have e2 := R.sub_rel h1 h0
  rw [abs_of_nonneg (show 0 ≤ x - v0 by linarith)] at e1
  have hD : 0 < v1 - v0 := by linarith
  rw [abs_of_pos hD] at e2
  have e3 := R.err (x := rnd (x - v0) / rnd (v1 - v0)) (k := 0) (by norm_num) (by rw [abs_of_nonneg q0]; simpa using q1)
  have ha0 : 0 ≤ (x - v0) / (v1 - v0) := div_nonneg (by linarith) hD.le
  have ha1 : (x - v0) / (v1 - v0) ≤ 1 := (div_le_one hD).mpr (by linarith)
  have e4 : |rnd (x - v0) / rnd (v1 - v0) - (x - v0) / (v1 - v0)| ≤ 2 * 2 ^ (-53 : ℤ) + 2 ^ (-60 : ℤ) := by
    generalize rnd (x - v0) = n at *
    generalize rnd (v1 - v0) = d at *
    set a := (x - v0) / (v1 - v0) with ha
    have hN : x - v0 = a * (v1 - v0) := by rw [ha]; field_simp
    rw [hN] at e1
    generalize v1 - v0 = D at *
    have hdD : (1 - 2 ^ (-53 : ℤ)) * D ≤ d := by
      have := (abs_le.mp e2).1
      linarith
    have : n / d - a = ((n - a * D) - a * (d - D)) / d := by field_simp; ring
    rw [this, abs_div, abs_of_pos hd, div_le_iff₀ hd]
    have h3 : |(n - a * D) - a * (d - D)| ≤ 2 * 2 ^ (-53 : ℤ) * D := by
      refine (abs_sub _ _).trans ?_
      rw [abs_mul, abs_of_nonneg ha0]
      have g1 : 2 ^ (-53 : ℤ) * (a * D) ≤ 2 ^ (-53 : ℤ) * D := by
        apply mul_le_mul_of_nonneg_left _ (by positivity)
        nlinarith
      have g2 : a * |d - D| ≤ 2 ^ (-53 : ℤ) * D := by
        calc a * |d - D| ≤ 1 * (2 ^ (-53 : ℤ) * D) := mul_le_mul ha1 e2 (abs_nonneg _) (by norm_num)
          _ = _ := one_mul _
      linarith
    refine h3.trans ?_
    norm_num only at hdD ⊢
    nlinarith
  have : rnd (rnd (x - v0) / rnd (v1 - v0)) - (x - v0) / (v1 - v0) =
      (rnd (rnd (x - v0) / rnd (v1 - v0)) - rnd (x - v0) / rnd (v1 - v0)) +
        (rnd (x - v0) / rnd (v1 - v0) - (x - v0) / (v1 - v0)) := by ring
  rw [this]
  refine (abs_add_le _ _).trans ((add_le_add e3 e4).trans ?_)
  norm_num

/-- Error of the value computed from two nodes. -/
theorem blend_err {v0 v1 c0 c1 x M : ℝ} (h0 : v0 ∈ F64) (h1 : v1 ∈ F64) (hx : x ∈ F64) (hv : v0 < v1) (l : v0 ≤ x)
    (u : x ≤ v1) (hc0 : |c0| ≤ M) (hc1 : |c1| ≤ M) :
    |blendF rnd v0 c0 v1 c1 x - line v0 c0 v1 c1 x| ≤ 2 ^ (-49 : ℤ) * M + 2 ^ (-1073 : ℤ) := by
  obtain ⟨w0, w1, w2⟩ := weightsF R h0 h1 hx hv l u
  unfold blendF
  set a := (x - v0) / (v1 - v0) with ha
  generalize rnd (rnd (x - v0) / rnd (v1 - v0)) = b at *
  have hline : line v0 c0 v1 c1 x = (1 - a) * c0 + a * c1 := by
    unfold line
    rw [ha]
    have : v1 - v0 ≠ 0 := by intro h; linarith
    field_simp
    ring
  rw [hline]
  have hM : 0 ≤ M := (abs_nonneg c0).trans hc0
  have d0 : 0 ≤ rnd (1 - b) := R.nonneg (by linarith)
  have d1 : rnd (1 - b) ≤ 1 := R.le_of_le F64.one (by linarith)
  have d2 := R.err (x := 1 - b) (k := 0) (by norm_num) (by rw [abs_of_nonneg (by linarith)]; norm_num; linarith)
  generalize rnd (1 - b) = d at *
  have p0 := R.rel (d * c0)
  have p1 := R.rel (b * c1)
  have m0 : |d * c0| ≤ M := by
    rw [abs_mul, abs_of_nonneg d0]
    nlinarith [abs_nonneg c0]
  have m1 : |b * c1| ≤ M := by
    rw [abs_mul, abs_of_nonneg w0]
    nlinarith [abs_nonneg c1]
  generalize rnd (d * c0) = P at *
  generalize rnd (b * c1) = Q at *
  have s := R.rel (P + Q)
  set η : ℝ := 2 ^ (-1075 : ℤ) with hη
  have hη0 : 0 ≤ η := by positivity
  have e73 : (2 : ℝ) ^ (-1073 : ℤ) = 4 * η := by
    rw [hη, show (-1073 : ℤ) = 2 + (-1075) by norm_num, zpow_add₀ (by norm_num)]
    norm_num
  have k0 : |P - d * c0| ≤ 2 ^ (-53 : ℤ) * M + η :=
    p0.trans (by have := mul_le_mul_of_nonneg_left m0 (show (0 : ℝ) ≤ 2 ^ (-53 : ℤ) by positivity); linarith)
  have k1 : |Q - b * c1| ≤ 2 ^ (-53 : ℤ) * M + η :=
    p1.trans (by have := mul_le_mul_of_nonneg_left m1 (show (0 : ℝ) ≤ 2 ^ (-53 : ℤ) by positivity); linarith)
  have k2 : |P + Q| ≤ 2 * M + 2 * (2 ^ (-53 : ℤ) * M + η) := by
    have : P + Q = (P - d * c0) + (Q - b * c1) + (d * c0 + b * c1) := by ring
    rw [this]
    refine (abs_add_le _ _).trans ?_
    have := abs_add_le (P - d * c0) (Q - b * c1)
    have := abs_add_le (d * c0) (b * c1)
    linarith
  have k3 : |d * c0 - (1 - a) * c0| ≤ 4 * 2 ^ (-53 : ℤ) * M := by
    rw [← sub_mul, abs_mul]
    refine mul_le_mul ?_ hc0 (abs_nonneg _) (by positivity)
    have : d - (1 - a) = (d - (1 - b)) + (a - b) := by ring
    rw [this]
    refine (abs_add_le _ _).trans ?_
    rw [abs_sub_comm a b]
    refine (add_le_add d2 w2).trans ?_
    norm_num
  have k4 : |b * c1 - a * c1| ≤ 3 * 2 ^ (-53 : ℤ) * M := by
    rw [← sub_mul, abs_mul]
    exact mul_le_mul w2 hc1 (abs_nonneg _) (by positivity)
  have : rnd (P + Q) - ((1 - a) * c0 + a * c1) = (rnd (P + Q) - (P + Q)) + ((P - d * c0) + (Q - b * c1) +
      ((d * c0 - (1 - a) * c0) + (b * c1 - a * c1))) := by ring
  rw [this, e73]
  refine (abs_add_le _ _).trans ?_
  have t1 := abs_add_le (P - d * c0 + (Q - b * c1)) ((d * c0 - (1 - a) * c0) + (b * c1 - a * c1))
  have t2 := abs_add_le (P - d * c0) (Q - b * c1)
  have t3 := abs_add_le (d * c0 - (1 - a) * c0) (b * c1 - a * c1)
  have s' : |rnd (P + Q) - (P + Q)| ≤ 2 ^ (-53 : ℤ) * (2 * M + 2 * (2 ^ (-53 : ℤ) * M + η)) + η :=
    s.trans (by have := mul_le_mul_of_nonneg_left k2 (show (0 : ℝ) ≤ 2 ^ (-53 : ℤ) by positivity); linarith)
  norm_num only at k0 k1 k3 k4 s' ⊢
  linarith

/-- C72: between the first and the last node the value computed in double precision differs
from the exact piecewise linear function by at most 16 units of the relative precision times
the larger of the two values (and the least numbers of the format); it does not become
negative when the values are not negative. -/
theorem C72_error (v c : List ℝ) (hs : v.Pairwise (· < ·)) (hl : v.length = c.length) (hn : v.length < 2 ^ 64)
    (hv : ∀ a ∈ v, a ∈ F64) (hc : ∀ a ∈ c, a ∈ F64) (x : ℝ) (hx : x ∈ F64) (k : Nat) (hk : k + 1 < v.length)
    (h1 : v[k] ≤ x) (h3 : x ≤ v[k + 1]) :
    ∃ y, interp1F rnd x v c = some y ∧
      |y - line v[k] (c[k]'(by omega)) v[k + 1] (c[k + 1]'(by omega)) x| ≤
        16 * 2 ^ (-53 : ℤ) * max |c[k]'(by omega)| |c[k + 1]'(by omega)| + 2 ^ (-1073 : ℤ) ∧
      (0 ≤ c[k]'(by omega) → 0 ≤ c[k + 1]'(by omega) → 0 ≤ y) := by
  have hlt : ∀ i j (hi : i < v.length) (hj : j < v.length), i < j → v[i] < v[j] := by
    intro i j hi hj h
    exact List.pairwise_iff_getElem.mp hs i j hi hj h
  have hkk := hlt k (k + 1) (by omega) hk (by omega)
  have hb0 : (0 : ℝ) ≤ 16 * 2 ^ (-53 : ℤ) * max |c[k]'(by omega)| |c[k + 1]'(by omega)| + 2 ^ (-1073 : ℤ) := by
    have : 0 ≤ max |c[k]'(by omega)| |c[k + 1]'(by omega)| := le_max_of_le_left (abs_nonneg _)
    positivity
  rcases eq_or_lt_of_le h3 with he | h3'
  · refine ⟨c[k + 1]'(by omega), ?_, ?_, fun _ h => h⟩
    · rw [he]
      exact C72_nodes R v c hs hl hn (by omega) hv hc (k + 1) hk
    · have : line v[k] (c[k]'(by omega)) v[k + 1] (c[k + 1]'(by omega)) x = c[k + 1]'(by omega) := by
        unfold line
        rw [he]
        have : v[k + 1] - v[k] ≠ 0 := by intro h; linarith
        field_simp
        ring
      rw [this, sub_self, abs_zero]
      exact hb0
  · refine ⟨_, interpF_at rnd v c hs hl hn x k hk ⟨Or.inl h1, Or.inl h3'⟩, ?_, ?_⟩
    · have := blend_err R (hv _ (List.getElem_mem (by omega : k < v.length))) (hv _ (List.getElem_mem hk)) hx hkk h1 h3
        (le_max_left |c[k]'(by omega)| |c[k + 1]'(by omega)|) (le_max_right |c[k]'(by omega)| |c[k + 1]'(by omega)|)
      have e : (2 : ℝ) ^ (-49 : ℤ) = 16 * 2 ^ (-53 : ℤ) := by norm_num
      rw [e] at this
      exact this
    · intro g0 g1
      obtain ⟨w0, w1, -⟩ := weightsF R (hv _ (List.getElem_mem (by omega : k < v.length))) (hv _ (List.getElem_mem hk))
        hx hkk h1 h3
      unfold blendF
      exact R.nonneg (add_nonneg (R.nonneg (mul_nonneg (R.nonneg (by linarith)) g0)) (R.nonneg (mul_nonneg w0 g1)))

/-- C72: the function is defined at every time, also outside of the nodes. -/
theorem C72_total (v c : List ℝ) (hs : v.Pairwise (· < ·)) (hl : v.length = c.length)
    (hn : v.length < 2 ^ 64) (h2 : 2 ≤ v.length) (x : ℝ) : ∃ y ∈ F64, interp1F rnd x v c = some y := by
  obtain ⟨k, hk, hx⟩ := exists_interval v hs h2 x
  exact ⟨_, R.mem _, interpF_at rnd v c hs hl hn x k hk hx⟩

end

/-! ### Cases -/

/-- The hypotheses are met by a series of three nodes. -/
example : ∃ rnd : ℝ → ℝ, Nearest rnd ∧ interp1F rnd 5 [1, 2, 5] [3, 4, -7] = some (-7) ∧
    ∃ y, interp1F rnd 3 [1, 2, 5] [3, 4, -7] = some y ∧ |y - (1 / 3)| ≤ 112 * 2 ^ (-53 : ℤ) + 2 ^ (-1073 : ℤ) := by
  obtain ⟨rnd, R⟩ := Nearest.exists
  have hi : ∀ n : ℤ, |n| ≤ 2 ^ 53 → (n : ℝ) ∈ F64 := fun n h => F64.int h
  have hv : ∀ a ∈ ([1, 2, 5] : List ℝ), a ∈ F64 := by
    intro a ha
    simp only [List.mem_cons, List.not_mem_nil, or_false] at ha
    rcases ha with rfl | rfl | rfl
    · simpa using hi 1 (by norm_num)
    · simpa using hi 2 (by norm_num)
    · simpa using hi 5 (by norm_num)
  have hc : ∀ a ∈ ([3, 4, -7] : List ℝ), a ∈ F64 := by
    intro a ha
    simp only [List.mem_cons, List.not_mem_nil, or_false] at ha
    rcases ha with rfl | rfl | rfl
    · simpa using hi 3 (by norm_num)
    · simpa using hi 4 (by norm_num)
    · simpa using hi (-7) (by norm_num)
  have hs : ([1, 2, 5] : List ℝ).Pairwise (· < ·) := by simp; norm_num
  refine ⟨rnd, R, C72_nodes R [1, 2, 5] [3, 4, -7] hs rfl (by simp) (by simp) hv hc 2 (by simp), ?_⟩
  obtain ⟨y, y1, y2, -⟩ := C72_error R [1, 2, 5] [3, 4, -7] hs rfl (by simp) hv hc 3 (by simpa using hi 3 (by norm_num))
    1 (by simp) (by simp; norm_num) (by simp; norm_num)
  refine ⟨y, y1, ?_⟩
  simp only [List.getElem_cons_succ, List.getElem_cons_zero, line] at y2
  rw [show (max |(4 : ℝ)| |(-7 : ℝ)|) = 7 by norm_num [abs_of_pos, abs_of_neg]] at y2
  refine le_trans (le_of_eq ?_) (y2.trans (le_of_eq (by ring)))
  norm_num

end Verif.Props
