/-
Helper lemmas: evaluation of a point independent of the arrays left by the earlier calls, and the
invariant of the module variables.
-/
import Verif.Model.Qd
import Verif.Lemmas.ApexSh

set_option linter.unusedSectionVars false

namespace Verif.Qd

open Verif.Apex Verif.Geo Verif.Buf Verif Verif.Spec

/-! ### Collapse of the coefficients -/

theorem poly_eq (rho : ℝ) (l : ℕ) : poly rho l = rho ^ l := by
  induction l with
  | zero => rfl
  | succ l ih => rw [poly, ih, pow_succ]

theorem collapse1_spec (q : Vec ℝ) (nsh lmax : ℕ) (rho : ℝ) (i : ℕ) (hi : i < nsh) (hq : (lmax + 1) * nsh ≤ q.len) :
    collapse1 q nsh lmax rho i = some (∑ l ∈ Finset.range (lmax + 1), q.at' (l * nsh + i) * rho ^ l) := by
  unfold collapse1
  obtain ⟨s, e, h⟩ := forTo_inv (fun l (s : ℝ) => s = ∑ k ∈ Finset.range l, q.at' (k * nsh + i) * rho ^ k)
    (fun l s => (q.rd (l * nsh + i)).map (fun c => s + c * poly rho l)) 0 lmax 0 (by omega) (by simp) (by
      intro l s _ hl hs
      have hb : l * nsh + i < q.len := by
        have : (l + 1) * nsh ≤ (lmax + 1) * nsh := Nat.mul_le_mul_right _ (by omega)
        have : l * nsh + nsh = (l + 1) * nsh := by ring
        omega
      refine ⟨_, by unfold Vec.rd; rw [if_pos hb]; rfl, ?_⟩
      rw [Finset.sum_range_succ, ← hs, poly_eq])
  rw [e, h]

theorem collapse_spec (q : Vec ℝ) (nsh lmax : ℕ) (rho : ℝ) (hq : (lmax + 1) * nsh ≤ q.len) :
    ∃ v, collapse q nsh lmax rho = some v ∧ v.len = nsh ∧
      ∀ i, i < nsh → v.at' i = ∑ l ∈ Finset.range (lmax + 1), q.at' (l * nsh + i) * rho ^ l := by
  unfold collapse
  obtain ⟨v, e, h1, h2⟩ := forBelow_inv (fun i (s : Vec ℝ) => s.len = nsh ∧
      ∀ k, k < i → s.at' k = ∑ l ∈ Finset.range (lmax + 1), q.at' (l * nsh + k) * rho ^ l)
    (fun i (s : Vec ℝ) => (collapse1 q nsh lmax rho i).bind (s.wr i)) 0 nsh ⟨nsh, fun _ => 0⟩ (by omega)
    ⟨rfl, by intro k hk; omega⟩ (by
      rintro i s _ hi ⟨h1, h2⟩
      rw [collapse1_spec q nsh lmax rho i hi hq]
      refine ⟨{ s with at' := fun k => if k = i then ∑ l ∈ Finset.range (lmax + 1), q.at' (l * nsh + i) * rho ^ l else s.at' k },
        by simp only [Option.bind_some]; unfold Vec.wr; rw [if_pos (by omega)], h1, ?_⟩
      intro k hk
      by_cases hki : k = i
      · subst hki; simp
      · simp only [if_neg hki]; exact h2 k (by omega))
  exact ⟨v, e, h1, h2⟩

theorem collapsed_spec (qx qy qz : Vec ℝ) (nsh lmax : ℕ) (alt : ℝ) (hx : (lmax + 1) * nsh ≤ qx.len)
    (hy : (lmax + 1) * nsh ≤ qy.len) (hz : (lmax + 1) * nsh ≤ qz.len) :
    ∃ c, collapsed qx qy qz nsh lmax alt = some c ∧ c.h = alt ∧ c.x.len = nsh ∧ c.y.len = nsh ∧ c.z.len = nsh ∧
      ∀ i, i < nsh →
        c.x.at' i = ∑ l ∈ Finset.range (lmax + 1), qx.at' (l * nsh + i) * (re / (re + alt)) ^ l ∧
        c.y.at' i = ∑ l ∈ Finset.range (lmax + 1), qy.at' (l * nsh + i) * (re / (re + alt)) ^ l ∧
        c.z.at' i = ∑ l ∈ Finset.range (lmax + 1), qz.at' (l * nsh + i) * (re / (re + alt)) ^ l := by
  obtain ⟨x, e1, l1, h1⟩ := collapse_spec qx nsh lmax (re / (re + alt)) hx
  obtain ⟨y, e2, l2, h2⟩ := collapse_spec qy nsh lmax (re / (re + alt)) hy
  obtain ⟨z, e3, l3, h3⟩ := collapse_spec qz nsh lmax (re / (re + alt)) hz
  refine ⟨⟨alt, x, y, z⟩, ?_, rfl, l1, l2, l3, fun i hi => ⟨h1 i hi, h2 i hi, h3 i hi⟩⟩
  unfold collapsed
  simp only [e1, e2, e3, Option.bind_eq_bind, Option.bind_some]

/-! ### One point -/

/-- The arrays between the calls. -/
def WorkOk (nmax mmax : ℕ) (w : Work ℝ) : Prop := Dims nmax mmax w.alf ∧ Zeros mmax w.alf ∧ Lens nmax mmax w.sh

theorem dot_psum (a b : Vec ℝ) : dot a b = psum a b.at' a.len := rfl

/-- Scalar products and the arrays after the evaluation of a point. -/
theorem evalPoint_spec {nmax mmax : ℕ} (h1 : 1 ≤ mmax) (hnn : mmax ≤ nmax) {w : Work ℝ} (hw : WorkOk nmax mmax w)
    (c : Collapsed ℝ) (glat glon : ℝ) (vec : Bool) :
    ∃ s w', evalPoint libm (Real.sqrt (1 / 2)) nmax mmax w c glat glon vec =
        some (outputs libm c s ((90 - glat) * dtor libm) vec, w') ∧ WorkOk nmax mmax w' ∧
      let θ := (90 - glat) * (Real.pi / 180)
      let φ := glon * (Real.pi / 180)
      ∀ v : Vec ℝ, dot s.sh v = shSeries nmax mmax (ca nmax v.at') (cb nmax v.at') θ φ ∧
        (vec = true →
          dot s.gt v = deriv (fun t => shSeries nmax mmax (ca nmax v.at') (cb nmax v.at') t φ) θ ∧
          Real.sin θ * dot s.gp v = deriv (fun t => shSeries nmax mmax (ca nmax v.at') (cb nmax v.at') θ t) φ ∧
          dot s.gp v = allSum nmax (fun n m => m * wf n m (Real.cos θ) (Real.sin θ)) (fun m => -Real.sin (m * φ))
            (fun m => Real.cos (m * φ)) 0 v.at' (mmax + 1)) := by
  obtain ⟨hd, hz, hl⟩ := hw
  set θ := (90 - glat) * (Real.pi / 180) with hθ
  set φ := glon * (Real.pi / 180) with hφ
  obtain ⟨a, e1, d1, z1, c1⟩ := alfbasis_spec (x := Real.cos θ) (y := Real.sin θ) (by nlinarith [Real.sin_sq_add_cos_sq θ]) h1 hnn hd hz
  obtain ⟨s, e2, l2, p2⟩ := shcalc_spec h1 hnn d1 c1 vec φ w.sh hl
  refine ⟨s, ⟨a, s⟩, ?_, ⟨d1, z1, l2⟩, ?_⟩
  · have e1' : alfbasis libm.sqrt nmax mmax (libm.cos ((90 - glat) * dtor libm)) (libm.sin ((90 - glat) * dtor libm))
        (Real.sqrt (1 / 2)) w.alf = some a := e1
    have e2' : shcalc libm nmax mmax a vec (glon * dtor libm) w.sh = some s := e2
    unfold evalPoint
    simp only [e1', e2', Option.bind_eq_bind, Option.bind_some]
  · intro θ' φ' v
    refine ⟨?_, fun hv => ⟨?_, ?_, ?_⟩⟩
    · rw [dot_psum, l2.1, (p2 v.at').1, allSum_series]
    · rw [dot_psum, l2.2.1, ((p2 v.at').2 hv).1]
      exact (hasDerivAt_series_theta nmax mmax v.at' θ φ).deriv.symm
    · rw [dot_psum, l2.2.2, ((p2 v.at').2 hv).2]
      exact (hasDerivAt_series_phi nmax mmax v.at' θ φ).deriv.symm
    · rw [dot_psum, l2.2.2, ((p2 v.at').2 hv).2]

/-- Arrays just allocated. -/
def freshWork (nmax mmax : ℕ) : Work ℝ :=
  ⟨⟨⟨nmax, mmax, fun _ _ => 0⟩, ⟨nmax, mmax, fun _ _ => 0⟩, ⟨nmax, mmax, fun _ _ => 0⟩⟩,
    ⟨⟨ntermsh nmax mmax, fun _ => 0⟩, ⟨ntermsh nmax mmax, fun _ => 0⟩, ⟨ntermsh nmax mmax, fun _ => 0⟩⟩⟩

theorem freshWork_ok {nmax mmax : ℕ} (h1 : 1 ≤ mmax) (hnn : mmax ≤ nmax) : WorkOk nmax mmax (freshWork nmax mmax) := by
  have := off_ntermsh nmax mmax h1 hnn
  exact ⟨⟨⟨rfl, rfl⟩, ⟨rfl, rfl⟩, ⟨rfl, rfl⟩⟩, ⟨rfl, fun _ _ _ => rfl⟩, ⟨this.symm, this.symm, this.symm⟩⟩

theorem outputs_congr (c : Collapsed ℝ) (s s' : Sh ℝ) (θ : ℝ) (vec : Bool) (h : ∀ v, dot s.sh v = dot s'.sh v)
    (ht : vec = true → ∀ v, dot s.gt v = dot s'.gt v) (hp : vec = true → ∀ v, dot s.gp v = dot s'.gp v) :
    outputs libm c s θ vec = outputs libm c s' θ vec := by
  cases vec with
  | false => simp only [outputs, h]; rfl
  | true => simp only [outputs, gradients, h, ht rfl, hp rfl]

/-- The outputs do not depend on the arrays left by the earlier calls. -/
theorem evalPoint_fresh {nmax mmax : ℕ} (h1 : 1 ≤ mmax) (hnn : mmax ≤ nmax) {w w1 : Work ℝ} (hw : WorkOk nmax mmax w)
    (hw1 : WorkOk nmax mmax w1) (c : Collapsed ℝ) (glat glon : ℝ) (vec : Bool) :
    ∃ q w' w1', evalPoint libm (Real.sqrt (1 / 2)) nmax mmax w c glat glon vec = some (q, w') ∧
      evalPoint libm (Real.sqrt (1 / 2)) nmax mmax w1 c glat glon vec = some (q, w1') ∧ WorkOk nmax mmax w' := by
  obtain ⟨s, w', e, o, p⟩ := evalPoint_spec h1 hnn hw c glat glon vec
  obtain ⟨s1, w1', e1, -, p1⟩ := evalPoint_spec h1 hnn hw1 c glat glon vec
  refine ⟨_, _, w1', e, ?_, o⟩
  rw [e1]
  refine congrArg (fun q => some (q, w1')) (outputs_congr c s1 s _ vec (fun v => ?_) (fun hv v => ?_) (fun hv v => ?_))
  · rw [(p v).1, (p1 v).1]
  · rw [((p v).2 hv).1, ((p1 v).2 hv).1]
  · rw [((p v).2 hv).2.2, ((p1 v).2 hv).2.2]

/-! ### Epoch interpolation -/

theorem grid_get {grid : List ℝ} {i : ℕ} (h : i < grid.length) : grid[i]? = some grid[i] := List.getElem?_eq_getElem h

/-- The interval found by the search from an index `j` with all later nodes above the epoch. -/
theorem bracket_spec (grid : List ℝ) (hs : grid.Pairwise (· < ·)) (e : ℝ) :
    ∀ j (hj : j < grid.length) (_ : grid[0]'(by omega) ≤ e), ∃ i, bracket grid e j = some i ∧ i ≤ j ∧
      (∃ hi : i < grid.length, grid[i] ≤ e) ∧ (∀ k (hk : k < grid.length), i < k → k ≤ j → e ≤ grid[k]) ∧
      (i = 0 ∨ ∃ hi : i < grid.length, grid[i] < e) := by
  intro j
  induction j with
  | zero =>
    intro hj h0
    exact ⟨0, by unfold bracket; rw [grid_get hj]; rfl, le_refl _, ⟨hj, h0⟩, by intro k _ h1 h2; omega, Or.inl rfl⟩
  | succ j ih =>
    intro hj h0
    unfold bracket
    rw [grid_get hj]
    simp only [Option.bind_eq_bind, Option.bind_some]
    by_cases h : e ≤ grid[j + 1]
    · rw [if_pos h]
      obtain ⟨i, e1, h1, h2, h3, h4⟩ := ih (by omega) h0
      refine ⟨i, e1, by omega, h2, ?_, h4⟩
      intro k hk hik hkj
      rcases Nat.lt_or_ge j k with hjk | hjk
      · have : k = j + 1 := by omega
        subst this; exact h
      · exact h3 k hk hik hjk
    · rw [if_neg h]
      push Not at h
      exact ⟨j + 1, rfl, le_refl _, ⟨hj, h.le⟩, by intro k _ h1 h2; omega, Or.inr ⟨hj, h⟩⟩

/-- A finite epoch between the first and the last node. -/
noncomputable def clampR (grid : List ℝ) (e : ℝ) : ℝ := min (max e (grid.headD 0)) (grid.getLastD 0)

theorem head_le_last {grid : List ℝ} (hs : grid.Pairwise (· < ·)) (h : 0 < grid.length) :
    grid[0] ≤ grid[grid.length - 1] := by
  rcases Nat.eq_zero_or_pos (grid.length - 1) with h0 | h0
  · simp [h0]
  · exact (List.pairwise_iff_getElem.mp hs 0 (grid.length - 1) h (by omega) h0).le

theorem clampEpoch_fin {grid : List ℝ} (hs : grid.Pairwise (· < ·)) (h : 0 < grid.length) (e : ℝ) :
    clampEpoch grid (.fin e) = some (.fin (clampR grid e)) := by
  have hl : grid.getLast? = some grid[grid.length - 1] := by rw [List.getLast?_eq_getElem?]; exact grid_get (by omega)
  have hh : grid.head? = some grid[0] := by rw [List.head?_eq_getElem?]; exact grid_get h
  have h1 : grid.headD 0 = grid[0] := by rw [List.headD_eq_head?_getD, hh]; rfl
  have h2 : grid.getLastD 0 = grid[grid.length - 1] := by rw [List.getLastD_eq_getLast?, hl]; rfl
  have h3 := head_le_last hs h
  unfold clampEpoch clampR
  rw [hh, hl, h1, h2]
  simp only [Option.bind_eq_bind, Option.bind_some, X.lt, decide_eq_true_eq]
  by_cases a : e < grid[0]
  · rw [if_pos a, max_eq_right a.le, min_eq_left h3]
    simp only [X.lt, decide_eq_true_eq]
    rw [if_neg (not_lt.mpr h3)]
  · rw [if_neg a, max_eq_left (not_lt.mp a)]
    simp only [X.lt, decide_eq_true_eq]
    by_cases b : grid[grid.length - 1] < e
    · rw [if_pos b, min_eq_right b.le]
    · rw [if_neg b, min_eq_left (not_lt.mp b)]

theorem clampEpoch_inf {grid : List ℝ} (hs : grid.Pairwise (· < ·)) (h : 0 < grid.length) :
    clampEpoch grid .ninf = some (.fin grid[0]) ∧ clampEpoch grid .pinf = some (.fin grid[grid.length - 1]) := by
  have hl : grid.getLast? = some grid[grid.length - 1] := by rw [List.getLast?_eq_getElem?]; exact grid_get (by omega)
  have hh : grid.head? = some grid[0] := by rw [List.head?_eq_getElem?]; exact grid_get h
  have h3 := head_le_last hs h
  unfold clampEpoch
  rw [hh, hl]
  constructor
  · simp [X.lt, h3]
  · simp [X.lt]


/-- Value of the interpolation with the weights. -/
def mix (w : ℕ × ℕ × ℝ) (v : ℕ → ℝ) : ℝ := w.2.2 * v w.1 + (1 - w.2.2) * v w.2.1

theorem weights_fin {grid : List ℝ} (hs : grid.Pairwise (· < ·)) (h : 0 < grid.length) (x : X ℝ) (e : ℝ)
    (hx : clampEpoch grid x = some (.fin e)) (h0 : grid[0] ≤ e) (h1 : e ≤ grid[grid.length - 1]) :
    ∃ w, weights grid x = some w ∧ w.1 < grid.length ∧ w.2.1 < grid.length ∧ 0 ≤ w.2.2 ∧ w.2.2 ≤ 1 ∧
      (∀ v : ℕ → ℝ, ∀ k (hk : k + 1 < grid.length), grid[k] ≤ e → e ≤ grid[k + 1] →
        mix w v = v k + (e - grid[k]) / (grid[k + 1] - grid[k]) * (v (k + 1) - v k)) ∧
      (∀ v : ℕ → ℝ, ∀ k (hk : k < grid.length), e = grid[k] → mix w v = v k) := by
  have hlt := List.pairwise_iff_getElem.mp hs
  have hle : ∀ a b (ha : a < grid.length) (hb : b < grid.length), a ≤ b → grid[a] ≤ grid[b] := by
    intro a b ha hb hab
    rcases Nat.eq_or_lt_of_le hab with h | h
    · subst h; exact le_refl _
    · exact (hlt a b ha hb h).le
  unfold weights
  rw [hx]
  simp only [Option.bind_eq_bind, Option.bind_some]
  by_cases hn : grid.length = 1
  · rw [if_pos hn]
    refine ⟨_, rfl, by simp only; omega, by simp only; omega, by simp, by simp, ?_, ?_⟩
    · intro v k hk; omega
    · intro v k hk _
      have : k = 0 := by omega
      subst this; simp [mix]
  · rw [if_neg hn]
    obtain ⟨i, e1, h2, ⟨hi, h3⟩, h4, h5⟩ := bracket_spec grid hs e (grid.length - 1) (by omega) h0
    have hi1 : i + 1 < grid.length := by
      rcases h5 with h5 | ⟨_, h5⟩
      · omega
      · by_contra hc
        have : i = grid.length - 1 := by omega
        subst this
        exact absurd h1 (not_le.mpr h5)
    have h6 := h4 (i + 1) hi1 (by omega) (by omega)
    have h7 := hlt i (i + 1) hi hi1 (by omega)
    rw [e1]
    simp only [Option.bind_some, grid_get hi, grid_get hi1]
    have hd : 0 < grid[i + 1] - grid[i] := by linarith
    have hmix : ∀ v : ℕ → ℝ, mix (i, i + 1, (grid[i + 1] - e) / (grid[i + 1] - grid[i])) v =
        v i + (e - grid[i]) / (grid[i + 1] - grid[i]) * (v (i + 1) - v i) := by
      intro v
      unfold mix
      simp only
      field_simp
      ring
    have hnode : ∀ v : ℕ → ℝ, ∀ k (hk : k < grid.length), e = grid[k] →
        mix (i, i + 1, (grid[i + 1] - e) / (grid[i + 1] - grid[i])) v = v k := by
      intro v k hk hek
      rw [hmix]
      have : k = i ∨ k = i + 1 := by
        rcases Nat.lt_trichotomy k i with hki | hki | hki
        · exact absurd (hek ▸ h3) (not_le.mpr (hlt k i hk hi hki))
        · exact Or.inl hki
        · rcases Nat.lt_or_ge (i + 1) k with hk2 | hk2
          · exact absurd (hek ▸ h6) (not_le.mpr (hlt (i + 1) k hi1 hk hk2))
          · right; omega
      rcases this with rfl | rfl
      · rw [hek]; simp
      · rw [hek, div_self hd.ne']; ring
    refine ⟨_, rfl, hi, hi1, div_nonneg (by linarith) hd.le, (div_le_one hd).mpr (by linarith), ?_, hnode⟩
    intro v k hk hke hek
    rcases Nat.lt_trichotomy k i with hki | hki | hki
    · have : e = grid[k + 1] := le_antisymm hek ((hle (k + 1) i hk hi (by omega)).trans h3)
      rw [hnode v (k + 1) hk this, this]
      have hd2 := hlt k (k + 1) (by omega) hk (by omega)
      rw [div_self (sub_ne_zero.mpr hd2.ne')]
      ring
    · subst hki; exact hmix v
    · have : e = grid[k] := le_antisymm (h6.trans (hle (i + 1) k hi1 (by omega) (by omega))) hke
      rw [hnode v k (by omega) this, this]
      simp

/-- Times which the loader accepts. -/
theorem weights_some {grid : List ℝ} (hs : grid.Pairwise (· < ·)) (h : 0 < grid.length) (x : X ℝ) (hx : x ≠ .nan) :
    ∃ w, weights grid x = some w := by
  have hl := head_le_last hs h
  cases x with
  | nan => exact absurd rfl hx
  | ninf =>
    obtain ⟨w, e, _⟩ := weights_fin hs h .ninf _ (clampEpoch_inf hs h).1 (le_refl _) hl
    exact ⟨w, e⟩
  | pinf =>
    obtain ⟨w, e, _⟩ := weights_fin hs h .pinf _ (clampEpoch_inf hs h).2 hl (le_refl _)
    exact ⟨w, e⟩
  | fin e =>
    have h1 : grid.headD 0 = grid[0] := by rw [List.headD_eq_head?_getD, List.head?_eq_getElem?, grid_get h]; rfl
    have h2 : grid.getLastD 0 = grid[grid.length - 1] := by
      rw [List.getLastD_eq_getLast?, List.getLast?_eq_getElem?, grid_get (by omega)]; rfl
    obtain ⟨w, e, _⟩ := weights_fin hs h (.fin e) _ (clampEpoch_fin hs h e)
      (by unfold clampR; rw [h1, h2]; exact le_min (le_max_right _ _) hl) (by unfold clampR; rw [h2]; exact min_le_right _ _)
    exact ⟨w, e⟩

/-! ### Module variables -/

variable {F : Type} [DecidableEq F]

/-- A coefficient table with consistent dimensions and increasing epochs. -/
structure TableOk (t : Table ℝ) : Prop where
  pos : 1 ≤ t.mmax
  le : t.mmax ≤ t.nmax
  terms : t.nterm = (t.lmax + 1) * ntermsh t.nmax t.mmax
  epochs : 0 < t.grid.length
  sorted : t.grid.Pairwise (· < ·)

/-- Coefficients of the table at an epoch, collapsed for an altitude. -/
noncomputable def colAt (t : Table ℝ) (e : X ℝ) (alt : ℝ) : Option (Collapsed ℝ) := do
  let w ← weights t.grid e
  collapsed (blend t w 0) (blend t w 1) (blend t w 2) (ntermsh t.nmax t.mmax) t.lmax alt

/-- The module after a load. -/
structure Loaded (fs : F → Option (Table ℝ)) (m : Mod F ℝ) : Prop where
  flag : m.loadflag = false
  ok : TableOk m.table
  file : ∃ f, m.fileLast = some f ∧ fs f = some m.table
  coef : ∃ w, weights m.table.grid m.epochLast = some w ∧ m.qx = blend m.table w 0 ∧ m.qy = blend m.table w 1 ∧
    m.qz = blend m.table w 2
  cache : m.altlast = -999 ∨ colAt m.table m.epochLast m.altlast = some m.col
  work : WorkOk m.table.nmax m.table.mmax m.work

/-- The module at any time. -/
def Inv (fs : F → Option (Table ℝ)) (m : Mod F ℝ) : Prop := m.loadflag = true ∨ Loaded fs m

theorem xeq_eq {a b : X ℝ} (h : X.eq a b = true) : a = b := by
  cases a <;> cases b <;> simp [X.eq] at h ⊢ <;> exact h

theorem loadapxsh_spec {fs : F → Option (Table ℝ)} (junk : ℕ → ℝ) {m : Mod F ℝ} (hm : Inv fs m) {file : F} {t : Table ℝ}
    (hf : fs file = some t) (ht : TableOk t) {e : X ℝ} (he : e ≠ .nan) :
    ∃ m', loadapxsh fs junk m file e = some m' ∧ Loaded fs m' ∧ m'.table = t ∧ m'.epochLast = e ∧ m'.fileLast = some file := by
  obtain ⟨w, hw⟩ := weights_some ht.sorted ht.epochs e he
  unfold loadapxsh
  by_cases hr : (decide (m.fileLast ≠ some file) || m.loadflag) = true
  · simp only [hr, if_true, hf, Option.map_some, Option.bind_eq_bind, Option.bind_some, Bool.or_true]
    have hi : interpolate (allocate junk t m) e = some { allocate junk t m with
        qx := blend t w 0, qy := blend t w 1, qz := blend t w 2, altlast := -999 } := by
      unfold interpolate
      rw [show (allocate junk t m).table = t from rfl, hw]; rfl
    simp only [hi, Option.bind_some]
    refine ⟨_, rfl, ⟨rfl, ht, ⟨file, rfl, hf⟩, ⟨w, hw, rfl, rfl, rfl⟩, Or.inl rfl, ?_⟩, rfl, rfl, rfl⟩
    have := off_ntermsh t.nmax t.mmax ht.pos ht.le
    exact ⟨⟨⟨rfl, rfl⟩, ⟨rfl, rfl⟩, ⟨rfl, rfl⟩⟩, ⟨rfl, fun _ _ _ => rfl⟩, ⟨this.symm, this.symm, this.symm⟩⟩
  · have hr' := hr
    simp only [Bool.or_eq_true, decide_eq_true_eq, not_or, not_not, Bool.not_eq_true] at hr'
    simp only [hr, Bool.false_eq_true, if_false, Option.bind_eq_bind, Option.bind_some, Bool.or_false]
    have hL : Loaded fs m := by
      rcases hm with h | h
      · rw [hr'.2] at h; cases h
      · exact h
    obtain ⟨f, hf1, hf2⟩ := hL.file
    have hff : f = file := by rw [hr'.1] at hf1; exact (Option.some.inj hf1).symm
    subst hff
    have htt : m.table = t := by rw [hf] at hf2; exact (Option.some.inj hf2).symm
    by_cases hq : X.eq e m.epochLast = true
    · have := xeq_eq hq
      subst this
      simp only [hq, Bool.not_true, Bool.false_eq_true, if_false, Option.bind_some]
      exact ⟨_, rfl, ⟨rfl, hL.ok, ⟨f, rfl, by rw [hf, htt]⟩, hL.coef, hL.cache, hL.work⟩, htt, rfl, rfl⟩
    · simp only [hq, Bool.not_false, if_true]
      have hi : interpolate m e = some { m with
          qx := blend t w 0, qy := blend t w 1, qz := blend t w 2, altlast := -999 } := by
        unfold interpolate
        rw [htt, hw]; rfl
      simp only [hi, Option.bind_some]
      refine ⟨_, rfl, ⟨rfl, hL.ok, ⟨f, rfl, by rw [hf, htt]⟩, ⟨w, by simp only [htt]; exact hw, ?_, ?_, ?_⟩, Or.inl rfl, hL.work⟩, htt, rfl, rfl⟩
      all_goals simp only [htt]

theorem colAt_some {t : Table ℝ} (ht : TableOk t) {w} {e : X ℝ} (hw : weights t.grid e = some w) (alt : ℝ) :
    ∃ c, colAt t e alt = some c := by
  obtain ⟨c, hc, _⟩ := collapsed_spec (blend t w 0) (blend t w 1) (blend t w 2) (ntermsh t.nmax t.mmax) t.lmax alt
    ht.terms.ge ht.terms.ge ht.terms.ge
  exact ⟨c, by unfold colAt; rw [hw]; exact hc⟩

/-- Quasi-dipole coordinates without any state: the table, the epoch and the geodetic position. -/
noncomputable def pointQd (t : Table ℝ) (e : X ℝ) (glat glon alt : ℝ) (vec : Bool) : Option (Qd ℝ) := do
  let c ← colAt t e alt
  let r ← evalPoint libm (Real.sqrt (1 / 2)) t.nmax t.mmax (freshWork t.nmax t.mmax) c glat glon vec
  some r.1

theorem apxg2q_spec {fs : F → Option (Table ℝ)} {m : Mod F ℝ} (hm : Loaded fs m) (glat glon alt : ℝ) (vec : Bool) :
    ∃ q m', apxg2q libm (Real.sqrt (1 / 2)) m glat glon alt vec = some (q, m') ∧ Loaded fs m' ∧
      m'.table = m.table ∧ m'.epochLast = m.epochLast ∧ m'.fileLast = m.fileLast ∧
      (alt ≠ -999 → pointQd m.table m.epochLast glat glon alt vec = some q) := by
  obtain ⟨w, hw, hx, hy, hz⟩ := hm.coef
  have fin : ∀ (m1 : Mod F ℝ), Loaded fs m1 → m1.table = m.table → m1.epochLast = m.epochLast → m1.fileLast = m.fileLast →
      (alt ≠ -999 → colAt m.table m.epochLast alt = some m1.col) →
      ∃ q m', (evalPoint libm (Real.sqrt (1 / 2)) m1.table.nmax m1.table.mmax m1.work m1.col glat glon vec).bind
          (fun r => some (r.1, { m1 with work := r.2 })) = some (q, m') ∧ Loaded fs m' ∧
        m'.table = m.table ∧ m'.epochLast = m.epochLast ∧ m'.fileLast = m.fileLast ∧
        (alt ≠ -999 → pointQd m.table m.epochLast glat glon alt vec = some q) := by
    intro m1 h1 ht he hf hc
    obtain ⟨q, w', w1', e1, e2, o⟩ := evalPoint_fresh h1.ok.pos h1.ok.le h1.work (freshWork_ok h1.ok.pos h1.ok.le) m1.col glat glon vec
    rw [e1]
    refine ⟨q, _, rfl, ⟨h1.flag, h1.ok, h1.file, h1.coef, h1.cache, o⟩, ht, he, hf, ?_⟩
    intro ha
    unfold pointQd
    rw [hc ha, ← ht]
    simp only [Option.bind_eq_bind, Option.bind_some, e2]
  unfold apxg2q
  rw [if_neg (by rw [hm.flag]; exact Bool.false_ne_true)]
  simp only [Option.bind_eq_bind]
  by_cases ha : alt ≠ m.altlast
  · rw [if_pos ha]
    obtain ⟨c, hc⟩ := colAt_some hm.ok hw alt
    have hc' := hc
    unfold colAt at hc'
    rw [hw] at hc'
    simp only [Option.bind_eq_bind, Option.bind_some] at hc'
    rw [← hx, ← hy, ← hz] at hc'
    rw [hc']
    simp only [Option.map_some, Option.bind_some]
    exact fin { m with col := c, altlast := alt } ⟨hm.flag, hm.ok, hm.file, hm.coef, Or.inr hc, hm.work⟩ rfl rfl rfl (fun _ => hc)
  · rw [if_neg ha]
    push Not at ha
    simp only [Option.bind_some]
    refine fin m hm rfl rfl rfl (fun h => ?_)
    rcases hm.cache with h1 | h1
    · exact absurd (ha.trans h1) h
    · rw [ha]; exact h1

end Verif.Qd
