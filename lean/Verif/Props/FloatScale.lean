/-
C92: the scales of sheval equal to 1 or -1 (the sign of the field of a potential) introduce no
rounding error.
-/
import Verif.Props.FloatEval

namespace Verif.Props

open Verif.Buf Verif.Spec Verif.ShPoint Verif.FloatSums Verif.FloatSeries Verif.FloatLegendre Verif.FloatEval

/-- A property kept by a loop which ends. -/
theorem forUp_keeps {S : Type} (P : S → Prop) (f : Nat → S → Option S)
    (h : ∀ i s t, f i s = some t → P s → P t) (n i : Nat) (s t : S) (e : forUp n i f s = some t) (hs : P s) : P t := by
  induction n generalizing i s with
  | zero => simp only [forUp, Option.some.injEq] at e; exact e ▸ hs
  | succ n ih =>
    simp only [forUp, Option.bind_eq_some_iff] at e
    obtain ⟨u, e1, e2⟩ := e
    exact ih _ _ e2 (h _ _ _ e1 hs)

/-- The potential is a double. -/
theorem evalVF_double {rnd : ℝ → ℝ} (R : Nearest rnd) {degree : Nat} {rad : ℝ} {coef lcs : List (ℝ × ℝ)}
    {lp rrp : List ℝ} {v : ℝ} (e : evalVF rnd degree rad coef lcs lp rrp = some v) : v ∈ F64 := by
  simp only [evalVF, Option.bind_eq_bind, Option.bind_eq_some_iff, Option.pure_def, Option.some.injEq] at e
  obtain ⟨_, _, _, _, _, _, rfl⟩ := e
  exact R.mem _

/-- The eastward component at the poles is a double. -/
theorem dvazPoleF_double {rnd : ℝ → ℝ} (R : Nearest rnd) {sin sqrt : ℝ → ℝ} {degree : Nat} {elv : ℝ}
    {coef lcs : List (ℝ × ℝ)} {rrp : List ℝ} {v : ℝ}
    (e : dvazPoleF rnd sin sqrt degree elv coef lcs rrp = some v) : v ∈ F64 := by
  simp only [dvazPoleF, Option.bind_eq_bind, Option.bind_eq_some_iff, Option.pure_def, Option.some.injEq] at e
  obtain ⟨_, _, _, _, _, _, st, e, rfl⟩ := e
  refine F64.neg (forUp_keeps (fun s => s.dvaz ∈ F64) _ ?_ _ _ _ _ e (R.mem _))
  intro i s t h _
  simp only [Option.bind_eq_some_iff, Option.some.injEq] at h
  obtain ⟨_, _, _, _, rfl⟩ := h
  exact R.mem _

/-- The components of the gradient are doubles. -/
theorem evalDvF_double {rnd : ℝ → ℝ} (R : Nearest rnd) {sin cos sqrt : ℝ → ℝ} {small : ℝ → Bool} {degree : Nat}
    {elv : ℝ} {coef lcs : List (ℝ × ℝ)} {lp ldp rrp : List ℝ} {isInternal : Bool} {g : Grad ℝ}
    (e : evalDvF rnd sin cos sqrt small degree elv coef lcs lp ldp rrp isInternal = some g) :
    g.el ∈ F64 ∧ g.az ∈ F64 ∧ g.rd ∈ F64 := by
  simp only [evalDvF, Option.bind_eq_bind, Option.bind_eq_some_iff, Option.pure_def] at e
  obtain ⟨_, _, _, _, st, e, e'⟩ := e
  have h : st.1 ∈ F64 ∧ st.2.2 ∈ F64 := by
    refine forUp_keeps (fun s : ℝ × ℝ × ℝ => s.1 ∈ F64 ∧ s.2.2 ∈ F64) _ ?_ _ _ _ _ e ⟨F64.zero, R.mem _⟩
    intro i s t h _
    simp only [Option.bind_eq_some_iff, Option.some.injEq] at h
    obtain ⟨_, _, _, _, _, _, _, _, _, _, rfl⟩ := h
    exact ⟨R.mem _, R.mem _⟩
  unfold fixPoleF at e'
  split at e'
  · simp only [Option.bind_eq_bind, Option.bind_eq_some_iff, Option.pure_def, Option.some.injEq] at e'
    obtain ⟨az, e1, rfl⟩ := e'
    exact ⟨h.1, dvazPoleF_double R e1, h.2⟩
  · simp only [Option.some.injEq] at e'
    subst e'
    exact ⟨h.1, R.mem _, h.2⟩

/-- The product with 1 or -1 is exact. -/
theorem unit_scale {rnd : ℝ → ℝ} (R : Nearest rnd) {x s : ℝ} (hx : x ∈ F64) (hs : s = 1 ∨ s = -1) :
    rnd (x * s) = x * s := by
  rcases hs with rfl | rfl
  · rw [mul_one, R.fixed hx]
  · rw [mul_neg_one, R.fixed (F64.neg hx)]

/-- C92: with the scales 1 and -1 the outputs are, up to the exact change of the sign, the outputs
with all scales equal to one: the field `-∇V` has the very same digits as the gradient of `V`.
It holds for any sine, cosine and root, any point and any mode. -/
theorem C92_sign {rnd : ℝ → ℝ} (R : Nearest rnd) (sin cos sqrt : ℝ → ℝ) (small : ℝ → Bool) (pi ref : ℝ)
    (degree mode : Nat) (isInternal : Bool) {sp s1 s2 s3 : ℝ} (hp : sp = 1 ∨ sp = -1) (h1 : s1 = 1 ∨ s1 = -1)
    (h2 : s2 = 1 ∨ s2 = -1) (h3 : s3 = 1 ∨ s3 = -1) (b : Mem ℝ) (x y z : ℝ) (coef : List (ℝ × ℝ))
    {ov : Option ℝ} {og : Option (Grad ℝ)}
    (e : sphPointF rnd sin cos sqrt small pi ref degree mode isInternal 1 (1, 1, 1) b x y z coef = some (ov, og)) :
    sphPointF rnd sin cos sqrt small pi ref degree mode isInternal sp (s1, s2, s3) b x y z coef =
      some (ov.map (· * sp), og.map fun g => ⟨g.el * s1, g.az * s2, g.rd * s3⟩) := by
  simp only [sphPointF, Option.bind_eq_bind, Option.bind_eq_some_iff, Option.pure_def, Option.some.injEq] at e
  obtain ⟨leg, e1, lcs, e2, rrp, e3, o, e4, e5⟩ := e
  have hv : ∀ v, o.1 = some v → v ∈ F64 := by
    intro v hv
    unfold evalF at e4
    split at e4
    · simp only [Option.bind_eq_bind, Option.bind_eq_some_iff, Option.pure_def, Option.some.injEq] at e4
      obtain ⟨w, ew, rfl⟩ := e4
      exact Option.some.inj hv ▸ evalVF_double R ew
    · simp only [Option.bind_eq_bind, Option.bind_eq_some_iff, Option.pure_def, Option.some.injEq] at e4
      obtain ⟨w, ew, rfl⟩ := e4
      simp at hv
    · simp only [C92_modes, Option.bind_eq_bind, Option.bind_eq_some_iff, Option.pure_def, Option.some.injEq] at e4
      obtain ⟨_, ⟨w, ew, g, eg, rfl⟩, rfl⟩ := e4
      exact Option.some.inj hv ▸ evalVF_double R ew
    · cases e4
      simp at hv
  have hg : ∀ g, o.2 = some g → g.el ∈ F64 ∧ g.az ∈ F64 ∧ g.rd ∈ F64 := by
    intro g hg
    unfold evalF at e4
    split at e4
    · simp only [Option.bind_eq_bind, Option.bind_eq_some_iff, Option.pure_def, Option.some.injEq] at e4
      obtain ⟨w, ew, rfl⟩ := e4
      simp at hg
    · simp only [Option.bind_eq_bind, Option.bind_eq_some_iff, Option.pure_def, Option.some.injEq] at e4
      obtain ⟨w, ew, rfl⟩ := e4
      exact Option.some.inj hg ▸ evalDvF_double R ew
    · simp only [C92_modes, Option.bind_eq_bind, Option.bind_eq_some_iff, Option.pure_def, Option.some.injEq] at e4
      obtain ⟨_, ⟨w, ew, g, eg, rfl⟩, rfl⟩ := e4
      exact Option.some.inj hg ▸ evalDvF_double R eg
    · cases e4
      simp at hg
  simp only [sphPointF, e1, e2, e3, e4, Option.bind_eq_bind, Option.bind_some, Option.pure_def, Option.some.injEq]
  obtain ⟨o1, o2⟩ := o
  obtain ⟨rfl, rfl⟩ := Prod.mk.inj e5
  refine Prod.ext ?_ ?_
  · cases o1 with
    | none => rfl
    | some v => simp [unit_scale R (hv v rfl) hp, R.fixed (hv v rfl)]
  · cases o2 with
    | none => rfl
    | some g =>
      obtain ⟨a1, a2, a3⟩ := hg g rfl
      simp [unit_scale R a1 h1, unit_scale R a2 h2, unit_scale R a3 h3, R.fixed a1, R.fixed a2, R.fixed a3]

/-- The potential and the field of a dipole at the latitude 45 and the longitude 90. -/
example : ∃ (rnd cos sin sqrt : ℝ → ℝ), Nearest rnd ∧ Accurate rnd sin sqrt ∧ ∃ (v : ℝ) (gr : Grad ℝ),
    sphPointF rnd sin cos sqrt (fun y => decide (|y| < 1e-10)) Real.pi 1 1 3 true 1 (1, 1, 1)
      ⟨⟨[7, 7, 7], [7, 7, 7]⟩, [(7, 7), (7, 7)], [7, 7]⟩ 45 90 2 [(0, 0), (-30000, 0), (-1500, 5000)] = some (some v, some gr) ∧
    sphPointF rnd sin cos sqrt (fun y => decide (|y| < 1e-10)) Real.pi 1 1 3 true 1 (-1, -1, -1)
      ⟨⟨[7, 7, 7], [7, 7, 7]⟩, [(7, 7), (7, 7)], [7, 7]⟩ 45 90 2 [(0, 0), (-30000, 0), (-1500, 5000)] =
      some (some v, some ⟨-gr.el, -gr.az, -gr.rd⟩) := by
  obtain ⟨rnd, R⟩ := Nearest.exists
  have L := (C91_pole_loss R ⟨[7, 7, 7], [7, 7, 7]⟩ rfl rfl).2.1
  have hone : ∀ y : ℝ, |y| ≤ 1 → |rnd y - y| ≤ 2 ^ (-53 : ℤ) := by
    intro y hy
    refine (R.err (k := 0) (by norm_num) (by simpa using hy)).trans ?_
    exact zpow_le_zpow_right₀ (by norm_num) (by norm_num)
  have hs : ∀ {y : ℝ} {k : ℤ}, k ≤ -10 → 2 ^ (-10 : ℤ) ≤ y → 2 ^ k ≤ y :=
    fun hk hy => (zpow_le_zpow_right₀ (by norm_num) hk).trans hy
  have hx : (90 : ℝ) * (Real.pi / 180) = Real.pi / 2 := by ring
  have e : (45 : ℝ) * (Real.pi / 180) = Real.pi / 4 := by ring
  have h3 : (14 : ℝ) / 10 ≤ Real.sqrt 2 := Real.le_sqrt_of_sq_le (by norm_num)
  obtain ⟨v, gr, north, east, up, e0, -⟩ := C92_sheval_partial (cos := fun y => rnd (Real.cos y)) R L
    (fun y => hone _ (Real.abs_cos_le_one y)) 45 90 2 1 (N := 1) (k := 46) (nL := 23) true (by norm_num) (by norm_num)
    (by norm_num) (Or.inr (by rw [e, Real.cos_pi_div_four]; push_cast; linarith)) (by norm_num) (by norm_num)
    (hs (by norm_num) (by norm_num))
    (by
      rw [hx, abs_of_pos (by positivity)]
      push_cast
      linarith [Real.pi_lt_four])
    (by norm_num)
    (by
      intro k hk
      refine hs (by norm_num) ?_
      have : k = 0 ∨ k = 1 := by omega
      rcases this with rfl | rfl <;> norm_num [radialExact])
    (hs (by norm_num) (by norm_num)) (hs (by norm_num) (by norm_num))
    (coef := [(0, 0), (-30000, 0), (-1500, 5000)])
    (g := fun i j => if i = 0 then 0 else if j = 0 then -30000 else -1500)
    (h := fun i j => if i = 1 ∧ j = 1 then 5000 else 0) (G := fun _ _ => 30000)
    (by
      intro i hi j hj
      have hG : (2 : ℝ) ^ (-300 : ℤ) ≤ 30000 := hs (by norm_num) (by norm_num)
      have : (i = 0 ∧ j = 0) ∨ (i = 1 ∧ j = 0) ∨ (i = 1 ∧ j = 1) := by omega
      rcases this with ⟨rfl, rfl⟩ | ⟨rfl, rfl⟩ | ⟨rfl, rfl⟩ <;>
        refine ⟨by simp, by norm_num, by norm_num, hG⟩)
    ⟨⟨[7, 7, 7], [7, 7, 7]⟩, [(7, 7), (7, 7)], [7, 7]⟩ ⟨rfl, rfl, rfl, rfl⟩
  have e1 := e0 3 1 (1, 1, 1)
  simp only [or_true, if_true, show (3 : Nat) % 4 = 3 from rfl] at e1
  refine ⟨rnd, _, _, _, R, L, _, _, e1, ?_⟩
  simpa using C92_sign R _ _ _ _ _ _ _ _ _ (Or.inl rfl) (Or.inr rfl) (Or.inr rfl) (Or.inr rfl) _ _ _ _ _ e1

end Verif.Props
