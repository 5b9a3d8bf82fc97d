/-
Lemmas on `_model_eval` with its buffers: the cached series equal the fresh ones.
-/
import Verif.Model.FullEval
import Verif.Props.Harmonic
import Verif.Props.Rotation

set_option linter.unusedSectionVars false

namespace Verif.FullEval

open Verif.Geo Verif.ShPoint Verif.Spec Verif.Props Verif.Buf Verif.Legendre

/-- `_model_eval` with real numbers. -/
noncomputable def modelEvalR (c : Config ℝ) (mode : Nat) (s : State ℝ) (v : V3 ℝ)
    (coef : List (ℝ × ℝ)) : Option (State ℝ × Out ℝ) :=
  modelEval libm nearPole (10 ^ 280) c mode s v coef

/-- `sheval` with real numbers. -/
noncomputable def batchR (c : Config ℝ) (mode : Nat) (s : State ℝ)
    (l : List (V3 ℝ × List (ℝ × ℝ))) : Option (List (Out ℝ)) :=
  batch libm nearPole (10 ^ 280) c mode s l

/-- Fill of the Legendre buffers: independent of the start content. -/
theorem leg_fill (N : Nat) (hN : 1 ≤ N) (φ : ℝ) : ∃ leg : Legendre.Out ℝ,
    leg.lp.length * 2 = (N + 1) * (N + 2) ∧ leg.ldp.length * 2 = (N + 1) * (N + 2) ∧
    ∀ o : Legendre.Out ℝ, o.lp.length * 2 = (N + 1) * (N + 2) → o.ldp.length * 2 = (N + 1) * (N + 2) →
      legendre Real.sin Real.sqrt nearPole (10 ^ 280) o N φ = some leg := by
  have e := tri_mul (N + 1)
  have ht : tri (N + 1) * 2 = (N + 1) * (N + 2) := by nlinarith
  obtain ⟨leg, -, t⟩ := legendre_spec nearPole nearPole_zero (10 ^ 280) (by positivity)
    ⟨List.replicate (tri (N + 1)) 0, List.replicate (tri (N + 1)) 0⟩ N hN (by simp) (by simp) φ
  refine ⟨leg, by rw [t.1, ht], by rw [t.2.1, ht], fun o h1 h2 => ?_⟩
  obtain ⟨leg', e', t'⟩ := legendre_spec nearPole nearPole_zero (10 ^ 280) (by positivity) o N hN
    (by omega) (by omega) φ
  rw [e', T.ext t t']

theorem lcs_fill (N : Nat) (lon : ℝ) : ∃ lcs : List (ℝ × ℝ), lcs.length = N + 1 ∧
    ∀ b : List (ℝ × ℝ), b.length = N + 1 → Fourier.fsCosSin Real.cos Real.sin b N lon = some lcs := by
  refine ⟨(List.range (N + 1)).map (fun (j : Nat) => Fourier.cis (j * lon)), by simp, fun b hb => ?_⟩
  obtain ⟨b', e, h1, h2⟩ := Fourier.fsCosSin_spec b N lon (by omega)
  rw [e, Holds.eq (n := N + 1) (by omega) (h2.mono (fun j hj => by omega))]

theorem rrp_fill (N : Nat) (int : Bool) (x : ℝ) : ∃ rrp : List ℝ, rrp.length = N + 1 ∧
    ∀ b : List ℝ, b.length = N + 1 →
      (if int then RadPow.internal else RadPow.external) b N x = some rrp := by
  cases int
  · refine ⟨(List.range (N + 1)).map (fun j => if j = 0 then 1 / x else x ^ (j - 1)), by simp,
      fun b hb => ?_⟩
    obtain ⟨b', e, h1, h2⟩ := RadPow.external_spec b N x (by omega)
    simp only [Bool.false_eq_true, if_false]
    rw [e, Holds.eq (n := N + 1) (by omega) (h2.mono (fun j hj => by omega))]
  · refine ⟨(List.range (N + 1)).map (fun j => (1 / x) ^ (j + 2)), by simp, fun b hb => ?_⟩
    obtain ⟨b', e, h1, h2⟩ := RadPow.internal_spec b N x (by omega)
    simp only [if_true]
    rw [e, Holds.eq (n := N + 1) (by omega) (h2.mono (fun j hj => by omega))]

/-- Invariant: the buffers have the allocated size and hold the series of the last
coordinates. -/
structure Inv (c : Config ℝ) (s : State ℝ) : Prop where
  mem : MemOk s.mem c.degree
  leg : ∀ φ, s.clatLast = some φ → ∀ b, MemOk b c.degree →
    legendre Real.sin Real.sqrt nearPole (10 ^ 280) b.leg c.degree φ = some s.mem.leg
  lcs : ∀ x, s.clonLast = some x → ∀ b, MemOk b c.degree →
    Fourier.fsCosSin Real.cos Real.sin b.lcs c.degree x = some s.mem.lcs
  rrp : ∀ r, s.cradLast = some r → ∀ b, MemOk b c.degree →
    (if c.isInternal then RadPow.internal else RadPow.external) b.rrp c.degree (r / c.cradRef) =
      some s.mem.rrp

theorem init_inv (c : Config ℝ) (b : Mem ℝ) (h : MemOk b c.degree) : Inv c (init b) :=
  ⟨h, fun _ h => by simp [init] at h, fun _ h => by simp [init] at h, fun _ h => by simp [init] at h⟩

/-- Outcome of one point without any history, with the buffers `b`. -/
noncomputable def fresh (c : Config ℝ) (mode : Nat) (b : Mem ℝ) (v : V3 ℝ) (coef : List (ℝ × ℝ)) :
    Option (Out ℝ) := do
  let p := position libm c v
  let o ← pointR c.cradRef c.degree mode c.isInternal b p.1.x p.1.y p.1.z coef
  finish libm c p o

/-- One step of the batch. -/
theorem modelEval_fresh (c : Config ℝ) (hN : 1 ≤ c.degree) (mode : Nat) (s : State ℝ) (hs : Inv c s)
    (v : V3 ℝ) (coef : List (ℝ × ℝ)) (b : Mem ℝ) (hb : MemOk b c.degree) :
    ∃ s', Inv c s' ∧ modelEvalR c mode s v coef = (fresh c mode b v coef).map (fun o => (s', o)) := by
  set p := position libm c v with hp
  obtain ⟨leg, g1, g2, g3⟩ := leg_fill c.degree hN p.1.x
  obtain ⟨lcs, l1, l2⟩ := lcs_fill c.degree p.1.y
  obtain ⟨rrp, r1, r2⟩ := rrp_fill c.degree c.isInternal (p.1.z / c.cradRef)
  have e1 : (if s.clatLast ≠ some p.1.x then
      legendre libm.sin libm.sqrt nearPole (10 ^ 280) s.mem.leg c.degree p.1.x
      else some s.mem.leg) = some leg := by
    split_ifs with h
    · exact g3 _ hs.mem.lp hs.mem.ldp
    · rw [not_not] at h
      rw [← hs.leg _ h b hb, g3 _ hb.lp hb.ldp]
  have e2 : (if s.clonLast ≠ some p.1.y then
      Fourier.fsCosSin libm.cos libm.sin s.mem.lcs c.degree p.1.y
      else some s.mem.lcs) = some lcs := by
    split_ifs with h
    · exact l2 _ hs.mem.lcs
    · rw [not_not] at h
      rw [← hs.lcs _ h b hb, l2 _ hb.lcs]
  have e3 : (if s.cradLast ≠ some p.1.z then
      (if c.isInternal then RadPow.internal else RadPow.external) s.mem.rrp c.degree (p.1.z / c.cradRef)
      else some s.mem.rrp) = some rrp := by
    split_ifs with h
    · rename_i hi
      have := r2 _ hs.mem.rrp
      rwa [if_pos hi] at this
    · rename_i hi
      have := r2 _ hs.mem.rrp
      rwa [if_neg hi] at this
    · rw [not_not] at h
      rw [← hs.rrp _ h b hb, r2 _ hb.rrp]
  refine ⟨⟨some p.1.x, some p.1.y, some p.1.z, ⟨leg, lcs, rrp⟩⟩, ⟨⟨g1, g2, l1, r1⟩, ?_, ?_, ?_⟩, ?_⟩
  · rintro φ h b hb; cases h; exact g3 _ hb.lp hb.ldp
  · rintro φ h b hb; cases h; exact l2 _ hb.lcs
  · rintro φ h b hb; cases h; exact r2 _ hb.rrp
  · have f1 := g3 _ hb.lp hb.ldp
    have f2 := l2 _ hb.lcs
    have f3 := r2 _ hb.rrp
    unfold modelEvalR modelEval fresh pointR point
    simp only [← hp]
    rw [e1, e2, e3, f1, f2, f3]
    simp only [Option.bind_eq_bind, Option.bind_some]
    have ee : eval libm.sin libm.cos libm.sqrt nearPole c.degree mode p.1.x p.1.z coef lcs leg.lp
      leg.ldp rrp c.isInternal = eval Real.sin Real.cos Real.sqrt nearPole c.degree mode p.1.x p.1.z coef lcs leg.lp
      leg.ldp rrp c.isInternal := rfl
    rw [ee]
    cases eval Real.sin Real.cos Real.sqrt nearPole c.degree mode p.1.x p.1.z coef lcs leg.lp
      leg.ldp rrp c.isInternal with
    | none => rfl
    | some o =>
      simp only [Option.bind_some]
      cases finish libm c p o <;> rfl

/-- The whole batch. -/
theorem batch_fresh (c : Config ℝ) (hN : 1 ≤ c.degree) (mode : Nat) (s : State ℝ) (hs : Inv c s)
    (l : List (V3 ℝ × List (ℝ × ℝ))) (b : Mem ℝ) (hb : MemOk b c.degree) :
    batchR c mode s l = l.mapM (fun q => fresh c mode b q.1 q.2) := by
  induction l generalizing s with
  | nil => rfl
  | cons q l ih =>
    obtain ⟨s', h1, h2⟩ := modelEval_fresh c hN mode s hs q.1 q.2 b hb
    rw [List.mapM_cons, ← ih s' h1]
    unfold batchR at *
    rw [batch]
    unfold modelEvalR at h2
    rw [h2]
    cases fresh c mode b q.1 q.2 <;> rfl

end Verif.FullEval
