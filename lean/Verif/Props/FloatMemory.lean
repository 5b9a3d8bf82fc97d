/-
C92: the doubles returned by sheval for a point do not depend on what the work arrays of the model
contained before.
-/
import Verif.Props.FloatEval

namespace Verif.Props

open Verif.Buf Verif.Spec Verif.ShPoint Verif.Legendre Verif.FloatSums Verif.FloatSeries Verif.FloatLegendre
  Verif.FloatEval

variable {K : Type} [Field K]

/-- Two passes of the same loop, the first of which ends. -/
theorem forUp_two {S : Type} (P : Nat → S → S → Prop) (f : Nat → S → Option S) (n : Nat) :
    ∀ (a : Nat) (s s' t : S), P a s s' →
      (∀ i s s' t, a ≤ i → i < a + n → P i s s' → f i s = some t → ∃ t', f i s' = some t' ∧ P (i + 1) t t') →
      forUp n a f s = some t → ∃ t', forUp n a f s' = some t' ∧ P (a + n) t t' := by
  induction n with
  | zero =>
    intro a s s' t h _ e
    simp only [forUp, Option.some.injEq] at e
    exact ⟨s', rfl, e ▸ h⟩
  | succ n ih =>
    intro a s s' t h step e
    simp only [forUp, Option.bind_eq_some_iff] at e
    obtain ⟨u, e1, e2⟩ := e
    obtain ⟨u', f1, hu⟩ := step a s s' u (le_refl _) (by omega) h e1
    obtain ⟨t', f2, ht⟩ := ih (a + 1) u u' t hu (fun i s s' t hi hi' => step i s s' t (by omega) (by omega)) e2
    refine ⟨t', by simp [forUp, f1, f2], ?_⟩
    rw [show a + (n + 1) = a + 1 + n by omega]
    exact ht

/-- Tables of the size `L` with the same first `k` items. -/
def Agree (L k : Nat) (o o' : Out K) : Prop :=
  (o.lp.length = L ∧ o.ldp.length = L) ∧ (o'.lp.length = L ∧ o'.ldp.length = L) ∧
    ∀ i < k, o.lp[i]? = o'.lp[i]? ∧ o.ldp[i]? = o'.ldp[i]?

theorem Agree.read {L k : Nat} {o o' : Out K} (h : Agree L k o o') {idx : Int} (hi : idx < k) :
    rdI o'.lp idx = rdI o.lp idx ∧ rdI o'.ldp idx = rdI o.ldp idx := by
  unfold rdI rd
  split
  · have := h.2.2 idx.toNat (by omega)
    exact ⟨this.1.symm, this.2.symm⟩
  · exact ⟨rfl, rfl⟩

theorem Agree.write {L k : Nat} {o o' t : Out K} (h : Agree L k o o') {idx : Int} (hi : idx = k) {p q : K}
    (e : o.put idx p q = some t) : ∃ t', o'.put idx p q = some t' ∧ Agree L (k + 1) t t' := by
  subst hi
  simp only [Out.put, wrI, wr, Int.natCast_nonneg, if_true, Int.toNat_natCast, Option.bind_eq_bind,
    Option.bind_eq_some_iff, Option.pure_def, Option.some.injEq, Option.ite_none_right_eq_some] at e ⊢
  obtain ⟨_, ⟨l1, rfl⟩, _, ⟨l2, rfl⟩, rfl⟩ := e
  have l1' : k < o'.lp.length := by rw [h.2.1.1, ← h.1.1]; exact l1
  have l2' : k < o'.ldp.length := by rw [h.2.1.2, ← h.1.2]; exact l2
  refine ⟨_, ⟨_, ⟨l1', rfl⟩, _, ⟨l2', rfl⟩, rfl⟩, by simpa using h.1, by simpa using h.2.1, ?_⟩
  intro i hi
  simp only [List.getElem?_set]
  by_cases hk : k = i
  · subst hk
    simp [l1, l2, l1', l2']
  · simp only [if_neg hk]
    exact h.2.2 i (by omega)

/-- The rows of the recurrence depend on the rows before only. -/
theorem lowRowF_agree (rnd : K → K) (s c : K) {L i : Nat} (h2 : 2 ≤ i) {o o' t : Out K}
    (h : Agree L (i * (i + 1) / 2) o o') (e : lowRowF rnd s c i o = some t) :
    ∃ t', lowRowF rnd s c i o' = some t' ∧ Agree L ((i + 1) * (i + 1 + 1) / 2) t t' := by
  have hoff : ((i : Int) * (i + 1)).tdiv 2 = ((i * (i + 1) / 2 : Nat) : Int) := by
    rw [Int.tdiv_eq_ediv_of_nonneg (by positivity)]
    push_cast
    rfl
  have hnext : (i + 1) * (i + 1 + 1) / 2 = i * (i + 1) / 2 + i + 1 := by
    rw [show (i + 1) * (i + 1 + 1) = i * (i + 1) + (i + 1) * 2 by ring, Nat.add_mul_div_right _ _ (by norm_num)]
    rfl
  rw [hnext]
  generalize hd : i * (i + 1) / 2 = d at *
  simp only [lowRowF, hoff, Option.bind_eq_bind, Option.bind_eq_some_iff, forBelow] at e ⊢
  obtain ⟨u, e1, p1, e2, d1, e3, w, e4, e5⟩ := e
  obtain ⟨u', f1, hu⟩ := forUp_two (fun j s s' => Agree L (d + j) s s') _ (i - 1 - 0) 0 o o' u h
    (by
      intro j s s' t _ hj hs e
      simp only [Option.bind_eq_some_iff] at e ⊢
      obtain ⟨a1, e1, a2, e2, a3, e3, a4, e4, e5⟩ := e
      obtain ⟨t', f5, ht⟩ := hs.write (by push_cast; ring) e5
      refine ⟨t', ⟨a1, ?_, a2, ?_, a3, ?_, a4, ?_, f5⟩, by rw [← add_assoc]; exact ht⟩
      · rw [(hs.read (by push_cast; omega)).1]; exact e1
      · rw [(hs.read (by push_cast; omega)).1]; exact e2
      · rw [(hs.read (by push_cast; omega)).2]; exact e3
      · rw [(hs.read (by push_cast; omega)).2]; exact e4)
    e1
  replace hu : Agree L (d + (i - 1)) u u' := by simpa using hu
  obtain ⟨w', f4, hw⟩ := hu.write (by omega) e4
  obtain ⟨t', f5, ht⟩ := hw.write (by omega) e5
  refine ⟨t', ⟨u', f1, p1, ?_, d1, ?_, w', f4, f5⟩, by rw [show d + i + 1 = d + (i - 1) + 1 + 1 by omega]; exact ht⟩
  · rw [(hu.read (by omega)).1]; exact e2
  · rw [(hu.read (by omega)).2]; exact e3

/-- The computed Legendre functions do not depend on the former content of the tables. -/
theorem lowF_memory (rnd : K → K) {o o' t : Out K} {N : Nat} (h1 : 1 ≤ N)
    (hl : o.lp.length = (N + 1) * (N + 2) / 2 ∧ o.ldp.length = (N + 1) * (N + 2) / 2)
    (hl' : o'.lp.length = (N + 1) * (N + 2) / 2 ∧ o'.ldp.length = (N + 1) * (N + 2) / 2) (s c : K) (ps : List K)
    (pr : List (Option K)) (e : lowF rnd o N s c ps pr = some t) : lowF rnd o' N s c ps pr = some t := by
  have hlen : 3 ≤ (N + 1) * (N + 2) / 2 := by
    have : 2 * 3 ≤ (N + 1) * (N + 2) := Nat.mul_le_mul (by omega) (by omega)
    omega
  have w : ∀ (l : List K), l.length = (N + 1) * (N + 2) / 2 → ∀ (j : Nat) (v : K), j < 3 →
      wrI l (j : Int) v = some (l.set j v) := by
    intro l hl j v hj
    exact wrI_eq v rfl (by omega)
  have run : ∀ o : Out K, o.lp.length = (N + 1) * (N + 2) / 2 ∧ o.ldp.length = (N + 1) * (N + 2) / 2 →
      lowF rnd o N s c ps pr = (forTo 2 N (lowRowF rnd s c)
        ⟨((o.lp.set 0 1).set 1 s).set 2 c, ((o.ldp.set 0 0).set 1 c).set 2 (-s)⟩).bind fun o =>
          (forTo 2 N (lowNormF rnd ps pr) (o, 1)).bind fun st => some st.1 := by
    intro o ho
    unfold lowF
    have a1 := w o.lp ho.1 0 1 (by norm_num)
    have a2 := w (o.lp.set 0 1) (by simpa using ho.1) 1 s (by norm_num)
    have a3 := w ((o.lp.set 0 1).set 1 s) (by simpa using ho.1) 2 c (by norm_num)
    have b1 := w o.ldp ho.2 0 0 (by norm_num)
    have b2 := w (o.ldp.set 0 0) (by simpa using ho.2) 1 c (by norm_num)
    have b3 := w ((o.ldp.set 0 0).set 1 c) (by simpa using ho.2) 2 (-s) (by norm_num)
    push_cast at a1 a2 a3 b1 b2 b3
    simp only [a1, a2, a3, b1, b2, b3, Option.bind_eq_bind, Option.bind_some, Option.pure_def]
  rw [run o hl, Option.bind_eq_some_iff] at e
  obtain ⟨u, e1, e2⟩ := e
  obtain ⟨u', f1, hu⟩ := forUp_two (fun i s s' => Agree ((N + 1) * (N + 2) / 2) (i * (i + 1) / 2) s s')
    (lowRowF rnd s c) (N + 1 - 2) 2 _
    ⟨((o'.lp.set 0 1).set 1 s).set 2 c, ((o'.ldp.set 0 0).set 1 c).set 2 (-s)⟩ u
    (by
      refine ⟨by simpa using hl, by simpa using hl', ?_⟩
      intro i hi
      have : i = 0 ∨ i = 1 ∨ i = 2 := by omega
      rcases this with rfl | rfl | rfl <;>
        simp [List.getElem?_set, hl.1, hl.2, hl'.1, hl'.2, show 0 < (N + 1) * (N + 2) / 2 by omega,
          show 1 < (N + 1) * (N + 2) / 2 by omega, show 2 < (N + 1) * (N + 2) / 2 by omega])
    (fun i _ _ _ hi _ hs e => lowRowF_agree rnd s c hi hs e) e1
  rw [show 2 + (N + 1 - 2) = N + 1 by omega] at hu
  have : u' = u := by
    obtain ⟨⟨a1, a2⟩, ⟨b1, b2⟩, hi⟩ := hu
    obtain ⟨x, y⟩ := u
    obtain ⟨x', y'⟩ := u'
    have ex : x = x' := by
      refine List.ext_getElem? fun i => ?_
      by_cases h : i < (N + 1) * (N + 2) / 2
      · exact (hi i h).1
      · rw [List.getElem?_eq_none (by simp only at a1; omega), List.getElem?_eq_none (by simp only at b1; omega)]
    have ey : y = y' := by
      refine List.ext_getElem? fun i => ?_
      by_cases h : i < (N + 1) * (N + 2) / 2
      · exact (hi i h).2
      · rw [List.getElem?_eq_none (by simp only at a2; omega), List.getElem?_eq_none (by simp only at b2; omega)]
    rw [ex, ey]
  rw [run o' hl', forTo, f1, this]
  exact e2

/-- Lists of the same length with the same items. -/
theorem holds_unique {A : Type} {b b' : List A} {n : Nat} {f : Nat → A} (h : b.length = n + 1) (h' : b'.length = n + 1)
    (H : Holds b (fun j => j ≤ n) f) (H' : Holds b' (fun j => j ≤ n) f) : b = b' := by
  refine List.ext_getElem? fun i => ?_
  by_cases hi : i ≤ n
  · rw [(H i hi).2, (H' i hi).2]
  · rw [List.getElem?_eq_none (by omega), List.getElem?_eq_none (by omega)]

/-- C92: whatever the arrays of the model held before (the tables of a point evaluated before, or
memory never written), the outputs for a point are the same doubles. -/
theorem C92_memory (rnd sin cos sqrt : K → K) (small : K → Bool) (pi ref : K) {N : Nat} (h1 : 1 ≤ N) (mode : Nat)
    (isInternal : Bool) (sp : K) (sg : K × K × K) (b b' : Mem K) (x y z : K) (coef : List (K × K))
    (hb : b.leg.lp.length = (N + 1) * (N + 2) / 2 ∧ b.leg.ldp.length = (N + 1) * (N + 2) / 2 ∧
      b.lcs.length = N + 1 ∧ b.rrp.length = N + 1)
    (hb' : b'.leg.lp.length = (N + 1) * (N + 2) / 2 ∧ b'.leg.ldp.length = (N + 1) * (N + 2) / 2 ∧
      b'.lcs.length = N + 1 ∧ b'.rrp.length = N + 1) :
    sphPointF rnd sin cos sqrt small pi ref N mode isInternal sp sg b x y z coef =
      sphPointF rnd sin cos sqrt small pi ref N mode isInternal sp sg b' x y z coef := by
  obtain ⟨l1, l2, l3, l4⟩ := hb
  obtain ⟨m1, m2, m3, m4⟩ := hb'
  have hlow : ∀ s c ps pr, lowF rnd b.leg N s c ps pr = lowF rnd b'.leg N s c ps pr := by
    intro s c ps pr
    refine Option.ext fun t => ⟨fun e => ?_, fun e => ?_⟩
    · exact lowF_memory rnd h1 ⟨l1, l2⟩ ⟨m1, m2⟩ s c ps pr e
    · exact lowF_memory rnd h1 ⟨m1, m2⟩ ⟨l1, l2⟩ s c ps pr e
  have hlcs : ∀ t, fsCosSinF rnd cos sin b.lcs N t = fsCosSinF rnd cos sin b'.lcs N t := by
    intro t
    obtain ⟨c, e, k, H⟩ := fsCosSinF_spec rnd cos sin b.lcs N t (by omega)
    obtain ⟨c', e', k', H'⟩ := fsCosSinF_spec rnd cos sin b'.lcs N t (by omega)
    rw [e, e', holds_unique (by omega) (by omega) H H']
  have hrrp : ∀ t, (if isInternal then internalF rnd else externalF rnd) b.rrp N t =
      (if isInternal then internalF rnd else externalF rnd) b'.rrp N t := by
    intro t
    cases isInternal
    · obtain ⟨c, e, k, H⟩ := externalF_spec rnd b.rrp N t (by omega)
      obtain ⟨c', e', k', H'⟩ := externalF_spec rnd b'.rrp N t (by omega)
      simp only [Bool.false_eq_true, if_false]
      rw [e, e', holds_unique (by omega) (by omega) H H']
    · obtain ⟨c, e, k, H⟩ := internalF_spec rnd b.rrp N t (by omega)
      obtain ⟨c', e', k', H'⟩ := internalF_spec rnd b'.rrp N t (by omega)
      simp only [if_true]
      rw [e, e', holds_unique (by omega) (by omega) H H']
  unfold sphPointF
  simp only [hlow, hlcs, hrrp]

/-- Tables never written and tables of another point. -/
example (rnd sin cos sqrt : ℝ → ℝ) (small : ℝ → Bool) :
    sphPointF rnd sin cos sqrt small Real.pi 1 1 3 true 1 (-1, -1, -1) ⟨⟨[0, 0, 0], [0, 0, 0]⟩, [(0, 0), (0, 0)], [0, 0]⟩
      45 90 2 [(0, 0), (-30000, 0), (-1500, 5000)] =
    sphPointF rnd sin cos sqrt small Real.pi 1 1 3 true 1 (-1, -1, -1) ⟨⟨[1, 0, 1], [0, 1, 0]⟩, [(1, 0), (1, 0)], [1, 1]⟩
      45 90 2 [(0, 0), (-30000, 0), (-1500, 5000)] :=
  C92_memory _ _ _ _ _ _ _ (by norm_num) _ _ _ _ _ _ _ _ _ _ ⟨rfl, rfl, rfl, rfl⟩ ⟨rfl, rfl, rfl, rfl⟩

end Verif.Props
