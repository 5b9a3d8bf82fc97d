/-
C92: the evaluation of a model in double precision, and the consistency of its modes.
-/
import Verif.Model.FloatEval
import Verif.Props.FloatGradient

namespace Verif.Props

open Verif.Buf Verif.Spec Verif.ShPoint Verif.FloatSums Verif.FloatSeries Verif.FloatLegendre Verif.FloatEval

/-- A loop over pairs whose components do not depend on each other. -/
theorem forUp_pair {S A B : Type} (w : A → B → S) (f : Nat → S → Option S) (f1 : Nat → A → Option A)
    (f2 : Nat → B → Option B)
    (h : ∀ i a b, f i (w a b) = (f1 i a).bind fun a' => (f2 i b).bind fun b' => some (w a' b'))
    (n i : Nat) (a : A) (b : B) :
    forUp n i f (w a b) = (forUp n i f1 a).bind fun a' => (forUp n i f2 b).bind fun b' => some (w a' b') := by
  induction n generalizing i a b with
  | zero => rfl
  | succ n ih =>
    simp only [forUp, h]
    cases h1 : f1 i a with
    | none => rfl
    | some a' =>
      cases h2 : f2 i b with
      | none => cases forUp n (i + 1) f1 a' <;> simp
      | some b' => simp [ih]

/-- C92: the combined evaluation gives exactly the same doubles as the two separate ones, whatever
the rounding, the library and the arguments. -/
theorem C92_modes {K : Type} [Field K] (rnd sin cos sqrt : K → K) (small : K → Bool) (degree : Nat) (elv rad : K)
    (coef lcs : List (K × K)) (lp ldp rrp : List K) (isInternal : Bool) :
    evalVDvF rnd sin cos sqrt small degree elv rad coef lcs lp ldp rrp isInternal =
      (evalVF rnd degree rad coef lcs lp rrp).bind fun v =>
        (evalDvF rnd sin cos sqrt small degree elv coef lcs lp ldp rrp isInternal).bind fun g => some (v, g) := by
  unfold evalVDvF evalVF evalDvF forTo
  simp only [Option.bind_eq_bind]
  cases h1 : rd coef 0 with
  | none => rfl
  | some c =>
    cases h2 : rd rrp 0 with
    | none => rfl
    | some r =>
      simp only [Option.bind_some]
      rw [forUp_pair (fun (a : K) (b : K × K × K) => (a, b)) _
        (fun i v => (rd coef (i * (i + 1) / 2)).bind fun c => (rd lp (i * (i + 1) / 2)).bind fun p =>
          (forUp (i + 1 - 1) 1 (fun j vi => (rd coef (i * (i + 1) / 2 + j)).bind fun c => (rd lcs j).bind fun l =>
            (rd lp (i * (i + 1) / 2 + j)).bind fun p =>
              pure (rnd (vi + rnd (rnd (rnd (c.1 * l.1) + rnd (c.2 * l.2)) * p)))) (rnd (c.1 * p))).bind fun vi =>
          (rd rrp i).bind fun r => pure (rnd (v + rnd (r * vi))))
        (fun i (st : K × K × K) => (rd coef (i * (i + 1) / 2)).bind fun c => (rd lp (i * (i + 1) / 2)).bind fun p =>
          (rd ldp (i * (i + 1) / 2)).bind fun d =>
          (forUp (i + 1 - 1) 1 (fun j (st : K × K × K) => (rd coef (i * (i + 1) / 2 + j)).bind fun c =>
            (rd lcs j).bind fun l => (rd lp (i * (i + 1) / 2 + j)).bind fun p =>
            (rd ldp (i * (i + 1) / 2 + j)).bind fun d =>
            pure (rnd (st.1 + rnd (rnd (rnd (c.1 * l.1) + rnd (c.2 * l.2)) * d)),
              rnd (st.2.1 + rnd (rnd (rnd (rnd (c.1 * l.2) - rnd (c.2 * l.1)) * p) * (j : K))),
              rnd (st.2.2 + rnd (rnd (rnd (rnd (c.1 * l.1) + rnd (c.2 * l.2)) * p) * idr isInternal i))))
            (rnd (c.1 * d), 0, rnd (rnd (c.1 * p) * idr isInternal i))).bind fun sti =>
          (rd rrp i).bind fun r => pure (rnd (st.1 + rnd (r * sti.1)), rnd (st.2.1 - rnd (r * sti.2.1)),
            rnd (st.2.2 - rnd (r * sti.2.2))))]
      · generalize forUp _ _ _ (rnd (c.1 * r)) = x
        generalize forUp _ _ _ ((0 : K), (0 : K), rnd (-rnd (c.1 * r) * idr isInternal 0)) = y
        cases x <;> cases y <;> rfl
      · intro i a b
        cases h3 : rd coef (i * (i + 1) / 2) with
        | none => rfl
        | some c =>
          cases h4 : rd lp (i * (i + 1) / 2) with
          | none => rfl
          | some p =>
            cases h5 : rd ldp (i * (i + 1) / 2) with
            | none =>
              simp
            | some d =>
              simp only [Option.bind_some]
              rw [forUp_pair (fun (a : K) (b : K × K × K) => (a, b)) _
                (fun j vi => (rd coef (i * (i + 1) / 2 + j)).bind fun c => (rd lcs j).bind fun l =>
                  (rd lp (i * (i + 1) / 2 + j)).bind fun p =>
                    pure (rnd (vi + rnd (rnd (rnd (c.1 * l.1) + rnd (c.2 * l.2)) * p))))
                (fun j (st : K × K × K) => (rd coef (i * (i + 1) / 2 + j)).bind fun c =>
                  (rd lcs j).bind fun l => (rd lp (i * (i + 1) / 2 + j)).bind fun p =>
                  (rd ldp (i * (i + 1) / 2 + j)).bind fun d =>
                  pure (rnd (st.1 + rnd (rnd (rnd (c.1 * l.1) + rnd (c.2 * l.2)) * d)),
                    rnd (st.2.1 + rnd (rnd (rnd (rnd (c.1 * l.2) - rnd (c.2 * l.1)) * p) * (j : K))),
                    rnd (st.2.2 + rnd (rnd (rnd (rnd (c.1 * l.1) + rnd (c.2 * l.2)) * p) * idr isInternal i))))]
              · generalize forUp _ _ _ (rnd (c.1 * p)) = x
                generalize forUp _ _ _ (rnd (c.1 * d), (0 : K), rnd (rnd (c.1 * p) * idr isInternal i)) = y
                cases x <;> cases y <;> cases rd rrp i <;> rfl
              · intro j a b
                cases rd coef (i * (i + 1) / 2 + j) <;> cases rd lcs j <;> cases rd lp (i * (i + 1) / 2 + j) <;>
                  cases rd ldp (i * (i + 1) / 2 + j) <;> rfl

/-- C92: without rounding the evaluation is the exact one. -/
theorem C92_exact {K : Type} [Field K] (sin cos sqrt : K → K) (small : K → Bool) (pi ref scale : K)
    (degree mode : Nat) (isInternal : Bool) (sp : K) (sg : K × K × K) (b : Mem K) (x y z : K)
    (coef : List (K × K)) (h : degree ≤ 16) :
    sphPointF id sin cos sqrt small pi ref degree mode isInternal sp sg b x y z coef =
      (point sin cos sqrt small scale ref degree mode isInternal b (pi / 180 * x) (pi / 180 * y) z coef).bind
        fun o => some (o.1.map (fun v => v * sp), o.2.map (fun g => ⟨g.el * sg.1, g.az * sg.2.1, g.rd * sg.2.2⟩)) := by
  unfold point Verif.Legendre.legendre
  simp only [if_pos (Or.inl h : degree ≤ 16 ∨ _), Option.bind_eq_bind, Option.bind_assoc]
  cases isInternal <;> rfl

/-- C92: the evaluation of a model of a degree up to 16 at a point given and with the result in the
geocentric spherical coordinates.  In every mode the potential is the product, rounded once, of
the scale and of a value `v` close to the potential of the model, and the components of the
gradient are such products of values `gr` close to the derivatives of the potential; `v` and `gr`
do not depend on the mode and the scales.  Missing: the degrees above 16, the
other coordinates, the accuracy of the eastward component next to the poles. -/
theorem C92_sheval_partial {rnd cos sin sqrt : ℝ → ℝ} (R : Nearest rnd) (L : Accurate rnd sin sqrt)
    (hcos : ∀ x, |cos x - Real.cos x| ≤ 2 ^ (-53 : ℤ)) (lat lon r a : ℝ) {N k nL : Nat} (isInternal : Bool)
    (h1 : 1 ≤ N) (hN : N ≤ 16) (hlat : |lat| ≤ 90)
    (hk : 2 ^ 30 ≤ k ∨ 32 ≤ k * Real.cos (lat * (Real.pi / 180))) (hk' : k ≤ 2 ^ 35) (ha : 0 < a)
    (hr : 2 ^ (-100 : ℤ) ≤ r) (hnL : N * (10 + 6 * |lon * (Real.pi / 180)|) + 1 ≤ nL) (hnL' : nL ≤ 2 ^ 38)
    (hR : ∀ k ≤ N, 2 ^ (-300 : ℤ) ≤ radialExact isInternal a r k)
    (hra : 2 ^ (-1020 : ℤ) ≤ r / a) (har : 2 ^ (-1020 : ℤ) ≤ a / r)
    {coef : List (ℝ × ℝ)} {g h G : Nat → Nat → ℝ} (hc : HoldsCoef N coef g h G) (b0 : Mem ℝ)
    (hb0 : b0.leg.lp.length = (N + 1) * (N + 2) / 2 ∧ b0.leg.ldp.length = (N + 1) * (N + 2) / 2 ∧
      b0.lcs.length = N + 1 ∧ b0.rrp.length = N + 1) :
    ∃ (v : ℝ) (gr : Grad ℝ) (north east up : ℝ),
      (∀ (mode : Nat) (sp : ℝ) (sg : ℝ × ℝ × ℝ),
        sphPointF rnd sin cos sqrt (fun y => decide (|y| < 1e-10)) Real.pi a N mode isInternal sp sg b0 lat lon r coef =
          some (if mode % 4 = 1 ∨ mode % 4 = 3 then some (rnd (v * sp)) else none,
            if mode % 4 = 2 ∨ mode % 4 = 3 then
              some ⟨rnd (gr.el * sg.1), rnd (gr.az * sg.2.1), rnd (gr.rd * sg.2.2)⟩ else none)) ∧
      |v - Verif.Spec.potential isInternal a N g h r (lat * (Real.pi / 180)) (lon * (Real.pi / 180))| ≤
        ((nL + (N * (k + 11) + 1) + 6 * N + 11 : Nat) : ℝ) * 2 ^ (-52 : ℤ) *
          potentialSize N r G (fun i _ => (8 / 3) ^ i) (radialExact isInternal a r) ∧
      HasDerivAt (fun φ => Verif.Spec.potential isInternal a N g h r φ (lon * (Real.pi / 180))) (r * north)
        (lat * (Real.pi / 180)) ∧
      HasDerivAt (fun x => Verif.Spec.potential isInternal a N g h r (lat * (Real.pi / 180)) x) (r * east)
        (lon * (Real.pi / 180)) ∧
      HasDerivAt (fun x => Verif.Spec.potential isInternal a N g h x (lat * (Real.pi / 180))
        (lon * (Real.pi / 180))) up r ∧
      |gr.el - north| ≤ ((nL + (N * (k + 11) + 1) + 6 * N + 12 : Nat) : ℝ) * 2 ^ (-52 : ℤ) *
        gradNorthSize N G (fun i _ => (i + 1) * (8 / 3) ^ i) (radialExact isInternal a r) ∧
      |gr.rd - up| ≤ ((nL + (N * (k + 11) + 1) + 6 * N + 12 : Nat) : ℝ) * 2 ^ (-52 : ℤ) *
        gradUpSize N isInternal G (fun i _ => (8 / 3) ^ i) (radialExact isInternal a r) ∧
      (32 ≤ k * Real.cos (lat * (Real.pi / 180)) →
        |gr.az - east / Real.cos (lat * (Real.pi / 180))| ≤
          2 * ((nL + (N * (k + 11) + 1) + 6 * N + 12 + k : Nat) : ℝ) * 2 ^ (-52 : ℤ) *
          (gradEastSize N G (fun i _ => (8 / 3) ^ i) (radialExact isInternal a r) /
            Real.cos (lat * (Real.pi / 180)))) := by
  obtain ⟨m1, m2, m3, m4⟩ := hb0
  have hr0 : 0 < r := lt_of_lt_of_le (by positivity) hr
  obtain ⟨t, lcs, rrp, v, e1, e2, e3, e4, b1⟩ := C91_potential_partial R L hcos b0.leg b0.lcs b0.rrp lat lon r a true
    isInternal h1 hN m1 m2 m3 m4 hlat hk hk' ha hr hnL hnL' hR hra har hc
  obtain ⟨t', lcs', rrp', gr, north, east, up, f1, f2, f3, f4, rest⟩ := C91_gradient_partial R L hcos b0.leg b0.lcs
    b0.rrp lat lon r a true isInternal h1 hN m1 m2 m3 m4 hlat hk hk' ha hr0 hnL hnL' hR hra har hc
  rw [e1] at f1
  rw [e2] at f2
  rw [e3] at f3
  cases f1
  cases f2
  cases f3
  refine ⟨v, gr, north, east, up, ?_, b1, rest⟩
  intro mode sp sg
  unfold legendreLowF at e1
  unfold loncossinF at e2
  unfold relradpowF at e3
  rw [if_neg (by omega)] at e2
  rw [if_neg (by omega), if_neg (not_le.mpr ha)] at e3
  simp only [if_true, Int.toNat_natCast, Option.some.injEq] at e1 e2 e3
  unfold sphPointF
  rw [mul_comm (dg2radF rnd Real.pi) lat, mul_comm (dg2radF rnd Real.pi) lon]
  simp only [e1, e2, e3, Option.bind_eq_bind, Option.bind_some]
  unfold evalF
  have hm : mode % 4 = 0 ∨ mode % 4 = 1 ∨ mode % 4 = 2 ∨ mode % 4 = 3 := by omega
  rcases hm with hm | hm | hm | hm <;> rw [hm]
  · rfl
  · simp [e4]
  · simp [f4]
  · simp [C92_modes, e4, f4]

/-- A dipole at the latitude 45 and the longitude 90, both outputs, with the scales 1 and -1. -/
example : ∃ (rnd cos sin sqrt : ℝ → ℝ), Nearest rnd ∧ Accurate rnd sin sqrt ∧ ∃ (v : ℝ) (gr : Grad ℝ),
    sphPointF rnd sin cos sqrt (fun y => decide (|y| < 1e-10)) Real.pi 1 1 3 true 1 (-1, -1, -1)
      ⟨⟨[7, 7, 7], [7, 7, 7]⟩, [(7, 7), (7, 7)], [7, 7]⟩ 45 90 2 [(0, 0), (-30000, 0), (-1500, 5000)] =
      some (some (rnd (v * 1)), some ⟨rnd (gr.el * -1), rnd (gr.az * -1), rnd (gr.rd * -1)⟩) ∧
    abs (v - Verif.Spec.potential true 1 1 (fun i j => if i = 0 then 0 else if j = 0 then -30000 else -1500)
      (fun i j => if i = 1 ∧ j = 1 then 5000 else 0) 2 (45 * (Real.pi / 180)) (90 * (Real.pi / 180))) ≤
      1 / 1000000 := by
  obtain ⟨rnd, R⟩ := Nearest.exists
  have L := (C91_pole_loss R ⟨[7, 7, 7], [7, 7, 7]⟩ rfl rfl).2.1
  have hone : ∀ y : ℝ, |y| ≤ 1 → |rnd y - y| ≤ 2 ^ (-53 : ℤ) := by
    intro y hy
    refine (R.err (k := 0) (by norm_num) (by simpa using hy)).trans ?_
    exact zpow_le_zpow_right₀ (by norm_num) (by norm_num)
  have hs : ∀ {y : ℝ} {k : ℤ}, k ≤ -10 → 2 ^ (-10 : ℤ) ≤ y → 2 ^ k ≤ y :=
    fun hk hy => (zpow_le_zpow_right₀ (by norm_num) hk).trans hy
  have hx : (90 : ℝ) * (Real.pi / 180) = Real.pi / 2 := by ring
  have e : (45 : ℝ) * (Real.pi / 180) = Real.pi / 4 := by ring
  have h3 : (14 : ℝ) / 10 ≤ Real.sqrt 2 := Real.le_sqrt_of_sq_le (by norm_num)
  obtain ⟨v, gr, north, east, up, e0, e1, -⟩ := C92_sheval_partial (cos := fun y => rnd (Real.cos y)) R L
    (fun y => hone _ (Real.abs_cos_le_one y)) 45 90 2 1 (N := 1) (k := 46) (nL := 23) true (by norm_num) (by norm_num)
    (by norm_num) (Or.inr (by rw [e, Real.cos_pi_div_four]; push_cast; linarith)) (by norm_num) (by norm_num)
    (hs (by norm_num) (by norm_num))
    (by
      rw [hx, abs_of_pos (by positivity)]
      push_cast
      linarith [Real.pi_lt_four])
    (by norm_num)
    (by
      intro k hk
      refine hs (by norm_num) ?_
      have : k = 0 ∨ k = 1 := by omega
      rcases this with rfl | rfl <;> norm_num [radialExact])
    (hs (by norm_num) (by norm_num)) (hs (by norm_num) (by norm_num))
    (coef := [(0, 0), (-30000, 0), (-1500, 5000)])
    (g := fun i j => if i = 0 then 0 else if j = 0 then -30000 else -1500)
    (h := fun i j => if i = 1 ∧ j = 1 then 5000 else 0) (G := fun _ _ => 30000)
    (by
      intro i hi j hj
      have hG : (2 : ℝ) ^ (-300 : ℤ) ≤ 30000 := hs (by norm_num) (by norm_num)
      have : (i = 0 ∧ j = 0) ∨ (i = 1 ∧ j = 0) ∨ (i = 1 ∧ j = 1) := by omega
      rcases this with ⟨rfl, rfl⟩ | ⟨rfl, rfl⟩ | ⟨rfl, rfl⟩ <;>
        refine ⟨by simp, by norm_num, by norm_num, hG⟩)
    ⟨⟨[7, 7, 7], [7, 7, 7]⟩, [(7, 7), (7, 7)], [7, 7]⟩ ⟨rfl, rfl, rfl, rfl⟩
  refine ⟨rnd, _, _, _, R, L, v, gr, by simpa using e0 3 1 (-1, -1, -1), e1.trans ?_⟩
  norm_num [potentialSize, Finset.sum_range_succ, radialExact]

end Verif.Props
