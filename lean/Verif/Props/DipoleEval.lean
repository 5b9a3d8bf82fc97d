import Verif.Props.Laplace
import Verif.Model.DipoleEval

/-!
# C68: evaluation in the frame of the magnetic dipole
-/

namespace Verif.Props

open Verif.Geo Verif.Spec Verif.ShPoint Verif.FullEval Verif.DipoleEval

set_option linter.unusedSectionVars false

/-- `sheval_dipole` with real numbers. -/
noncomputable def dipoleR (int : Bool) (N : Nat) (i o : CT) (mode : Nat) (sp : ℝ) (sg : V3 ℝ) (latN lonN : ℝ)
    (b : Mem ℝ) (l : List (V3 ℝ × List (ℝ × ℝ))) : Option (List (FullEval.Out ℝ)) :=
  shevalDipole libm nearPole (10 ^ 280) int N (code i) (code o) mode sp sg latN lonN b l

/-- What the output `u` of a point with the coefficients `q` has to be. -/
def DipoleOut (int : Bool) (N : Nat) (i o : CT) (mode : Nat) (sp : ℝ) (sg : V3 ℝ) (m : M3 ℝ) (b : Mem ℝ)
    (q : V3 ℝ × List (ℝ × ℝ)) (u : FullEval.Out ℝ) : Prop :=
  ∃ c r s, convert libm q.1 (code i) 2 = some c ∧ convert libm q.1 (code i) (code o) = some r ∧
    shevalR int N .cartesian .cartesian mode sp ⟨1, 1, 1⟩ b [(dot c m, q.2)] = some [s] ∧ u.1 = s.1 ∧
    (mode ≠ 1 → ∃ w g, u.2 = some ⟨w.x * sg.x, w.y * sg.y, w.z * sg.z⟩ ∧ s.2 = some g ∧
      dot (toCart o r w) m = g)

theorem cart_of_pos {i : CT} {v : V3 ℝ} (hv : Pos i v) :
    0 < inner3 (getFconv libm i .cartesian v) (getFconv libm i .cartesian v) := by
  rw [← sph_cart hv, ← place_sph]
  exact place_inner (sph_ok hv).2 _ _

/-- Spherical evaluation at the converted position and Cartesian evaluation. -/
theorem dipole_point (int : Bool) (N : Nat) (hN : 1 ≤ N) (mode : Nat) (hm : mode = 1 ∨ mode = 2 ∨ mode = 3) (sp : ℝ)
    (b b' : Mem ℝ) (hb : MemOk b N) (hb' : MemOk b' N) (p : V3 ℝ) (hp : p ≠ ⟨0, 0, 0⟩) (coef : List (ℝ × ℝ))
    (hc : CoefOk coef N) : ∃ t s : FullEval.Out ℝ,
    fresh (config int N .spherical .spherical sp ⟨1, 1, 1⟩) mode b (convCartSph libm p) coef = some t ∧
    shevalR int N .cartesian .cartesian mode sp ⟨1, 1, 1⟩ b' [(p, coef)] = some [s] ∧ t.1 = s.1 ∧
    (mode ≠ 1 → ∃ g, t.2 = some g ∧ s.2 = some (vrotSph2cart libm g (convCartSph libm p).x (convCartSph libm p).y)) := by
  have hP : Pos .cartesian p := hp
  obtain ⟨k1, k2⟩ := sph_ok hP
  have k1 : |(convCartSph libm p).x| ≤ 90 := k1
  have k2 : 0 < (convCartSph libm p).z := k2
  have e1 := fresh_eq int N .spherical .spherical sp ⟨1, 1, 1⟩ (convCartSph libm p) mode b coef
  have e2 := fresh_eq int N .cartesian .cartesian sp ⟨1, 1, 1⟩ p mode b coef
  have es : getFconv libm .spherical .spherical (convCartSph libm p) = convCartSph libm p := rfl
  have ec : getFconv libm .cartesian .spherical p = convCartSph libm p := rfl
  rw [es] at e1
  rw [ec] at e2
  have hs : ∀ s, fresh (config int N .cartesian .cartesian sp ⟨1, 1, 1⟩) mode b p coef = some s →
      shevalR int N .cartesian .cartesian mode sp ⟨1, 1, 1⟩ b' [(p, coef)] = some [s] := by
    intro s h
    unfold shevalR
    rw [batch_fresh (config int N .cartesian .cartesian sp ⟨1, 1, 1⟩) hN mode _ (init_inv _ b' hb') _ b hb,
      List.mapM_cons, h]
    rfl
  by_cases hm1 : mode = 1
  · obtain ⟨g, e⟩ := C23_potential_partial N hN mode (by omega) int b hb 6371.2 (dg2rad libm * (convCartSph libm p).x)
      (dg2rad libm * (convCartSph libm p).y) (convCartSph libm p).z (by norm_num) k2 (lat_rad k1) coef hc
    rw [e] at e1 e2
    cases g with
    | none => exact ⟨_, _, e1, hs _ e2, rfl, fun h => absurd hm1 h⟩
    | some g => exact ⟨_, _, e1, hs _ e2, rfl, fun h => absurd hm1 h⟩
  · obtain ⟨v, g, -, e, -⟩ := pointR_solid int N hN mode (by omega) b hb 6371.2 (dg2rad libm * (convCartSph libm p).x)
      (dg2rad libm * (convCartSph libm p).y) (convCartSph libm p).z (by norm_num) k2 (lat_rad k1) coef hc
    rw [e] at e1 e2
    obtain ⟨w, hw, hcart⟩ := project_cart int N .cartesian .cartesian sp ⟨1, 1, 1⟩ p hP g
    refine ⟨_, (v.map (fun y => y * sp), some w), e1, hs _ ?_, rfl, fun _ => ⟨⟨g.el, g.az, g.rd⟩, ?_, ?_⟩⟩
    · rw [e2]
      simp only [Option.bind_some, finish, hw, Option.bind_eq_bind]
      simp [config]
    · simp [config]
    · exact congrArg some hcart

/-- Rotation of one vector from the dipole frame. -/
theorem rotate_back (i o : CT) (latN lonN : ℝ) (d v g : V3 ℝ) : ∃ w,
    rotateVectorsFromDipole libm g latN lonN d v (code i) (code o) = some w ∧
    dot (toCart o (getFconv libm i o v) w) (dipoleMatrix libm latN lonN) = vrotSph2cart libm g d.x d.y := by
  have hc : ∀ w, rotateVectorsFromDipole libm g latN lonN d v (code i) 2 = some w →
      dot w (dipoleMatrix libm latN lonN) = vrotSph2cart libm g d.x d.y := by
    intro w h
    have : some (dot (vrotSph2cart libm g d.x d.y) (dipoleMatrix libm latN lonN).transpose) = some w := h
    rw [← Option.some.inj this, (dipole_inverse _ _ _).2]
  by_cases ho : o = .cartesian
  · subst ho
    exact ⟨_, rfl, hc _ rfl⟩
  · obtain ⟨q, w, h1, h2, h3⟩ := C36_rotate g latN lonN d v i o ho
    rw [convert_code] at h1
    cases Option.some.inj h1
    refine ⟨w, h2, ?_⟩
    have := hc _ h3
    cases o
    · exact this
    · exact this
    · exact absurd rfl ho

theorem rotateAll_ok (int : Bool) (N : Nat) (hN : 1 ≤ N) (i o : CT) (mode : Nat) (hm : mode = 2 ∨ mode = 3) (sp : ℝ)
    (sg : V3 ℝ) (latN lonN : ℝ) (b b' : Mem ℝ) (hb : MemOk b N) (hb' : MemOk b' N) :
    ∀ (l : List (V3 ℝ × List (ℝ × ℝ))), (∀ q ∈ l, Pos i q.1 ∧ CoefOk q.2 N) →
    ∃ d r outs, l.mapM (fun q => convertToDipole libm q.1 latN lonN (code i)) = some d ∧
      (d.zip (l.map Prod.snd)).mapM (fun q => fresh (config int N .spherical .spherical sp ⟨1, 1, 1⟩) mode b q.1 q.2) =
        some r ∧
      rotateAll libm latN lonN (code i) (code o) sg (l.map Prod.fst) d r = some outs ∧
      List.Forall₂ (DipoleOut int N i o mode sp sg (dipoleMatrix libm latN lonN) b') l outs
  | [], _ => ⟨[], [], [], rfl, rfl, rfl, .nil⟩
  | q :: l, h => by
    obtain ⟨d, r, outs, h1, h2, h3, h4⟩ := rotateAll_ok int N hN i o mode hm sp sg latN lonN b b' hb hb' l
      (fun q hq => h q (by simp [hq]))
    obtain ⟨hv, hc⟩ := h q (by simp)
    have hi := cart_of_pos hv
    have hne : dot (getFconv libm i .cartesian q.1) (dipoleMatrix libm latN lonN) ≠ ⟨0, 0, 0⟩ := by
      intro e
      rw [← (C35_rotation latN lonN _ _).1, e] at hi
      simp [inner3] at hi
    obtain ⟨t, s, t1, t2, t3, t4⟩ := dipole_point int N hN mode (by omega) sp b b' hb hb' _ hne q.2 hc
    obtain ⟨g, g1, g2⟩ := t4 (by omega)
    set p := dot (getFconv libm i .cartesian q.1) (dipoleMatrix libm latN lonN)
    obtain ⟨w, w1, w2⟩ := rotate_back i o latN lonN (convCartSph libm p) q.1 g
    have hd : convertToDipole libm q.1 latN lonN (code i) = some (convCartSph libm p) := by
      unfold convertToDipole
      rw [show convert libm q.1 (code i) 2 = some (getFconv libm i .cartesian q.1) from convert_code i .cartesian q.1]
      rfl
    refine ⟨convCartSph libm p :: d, t :: r, (t.1, some ⟨w.x * sg.x, w.y * sg.y, w.z * sg.z⟩) :: outs, ?_, ?_, ?_, ?_⟩
    · rw [List.mapM_cons, hd, h1]; rfl
    · rw [List.map_cons, List.zip_cons_cons, List.mapM_cons, t1, h2]; rfl
    · simp only [List.map_cons, rotateAll, g1, w1, h3, Option.bind_eq_bind, Option.bind_some]
      rfl
    · refine .cons ⟨_, _, s, convert_code i .cartesian q.1, convert_code i o q.1, t2, t3, fun _ => ?_⟩ h4
      exact ⟨w, _, rfl, g2, w2⟩

theorem potAll_ok (int : Bool) (N : Nat) (hN : 1 ≤ N) (i o : CT) (sp : ℝ) (sg : V3 ℝ) (latN lonN : ℝ)
    (b b' : Mem ℝ) (hb : MemOk b N) (hb' : MemOk b' N) :
    ∀ (l : List (V3 ℝ × List (ℝ × ℝ))), (∀ q ∈ l, Pos i q.1 ∧ CoefOk q.2 N) →
    ∃ d r, l.mapM (fun q => convertToDipole libm q.1 latN lonN (code i)) = some d ∧
      (d.zip (l.map Prod.snd)).mapM (fun q => fresh (config int N .spherical .spherical sp ⟨1, 1, 1⟩) 1 b q.1 q.2) =
        some r ∧
      List.Forall₂ (DipoleOut int N i o 1 sp sg (dipoleMatrix libm latN lonN) b') l r
  | [], _ => ⟨[], [], rfl, rfl, .nil⟩
  | q :: l, h => by
    obtain ⟨d, r, h1, h2, h4⟩ := potAll_ok int N hN i o sp sg latN lonN b b' hb hb' l
      (fun q hq => h q (by simp [hq]))
    obtain ⟨hv, hc⟩ := h q (by simp)
    have hi := cart_of_pos hv
    have hne : dot (getFconv libm i .cartesian q.1) (dipoleMatrix libm latN lonN) ≠ ⟨0, 0, 0⟩ := by
      intro e
      rw [← (C35_rotation latN lonN _ _).1, e] at hi
      simp [inner3] at hi
    obtain ⟨t, s, t1, t2, t3, -⟩ := dipole_point int N hN 1 (by omega) sp b b' hb hb' _ hne q.2 hc
    set p := dot (getFconv libm i .cartesian q.1) (dipoleMatrix libm latN lonN)
    have hd : convertToDipole libm q.1 latN lonN (code i) = some (convCartSph libm p) := by
      unfold convertToDipole
      rw [show convert libm q.1 (code i) 2 = some (getFconv libm i .cartesian q.1) from convert_code i .cartesian q.1]
      rfl
    refine ⟨convCartSph libm p :: d, t :: r, ?_, ?_, ?_⟩
    · rw [List.mapM_cons, hd, h1]; rfl
    · rw [List.map_cons, List.zip_cons_cons, List.mapM_cons, t1, h2]; rfl
    · exact .cons ⟨_, _, s, convert_code i .cartesian q.1, convert_code i o q.1, t2, t3, fun h => absurd rfl h⟩ h4

/-- All outputs, with the rotation of the code. -/
theorem dipole_core (latN lonN : ℝ) (int : Bool) (N : Nat) (hN : 1 ≤ N) (i o : CT) (mode : Nat)
    (hm : mode = 1 ∨ mode = 2 ∨ mode = 3) (sp : ℝ) (sg : V3 ℝ) (b b' : Mem ℝ) (hb : MemOk b N) (hb' : MemOk b' N)
    (l : List (V3 ℝ × List (ℝ × ℝ))) (hl : ∀ q ∈ l, Pos i q.1 ∧ CoefOk q.2 N) :
    ∃ outs, dipoleR int N i o mode sp sg latN lonN b l = some outs ∧
      List.Forall₂ (DipoleOut int N i o mode sp sg (dipoleMatrix libm latN lonN) b') l outs := by
  have hbf := batch_fresh (config int N .spherical .spherical sp ⟨1, 1, 1⟩) hN mode _ (init_inv _ b hb)
  unfold batchR at hbf
  rcases hm with rfl | hm
  · obtain ⟨d, r, h1, h2, h3⟩ := potAll_ok int N hN i o sp sg latN lonN b b' hb hb' l hl
    refine ⟨r, ?_, h3⟩
    unfold dipoleR shevalDipole
    rw [h1]
    simp only [Option.bind_eq_bind, Option.bind_some, if_pos (Or.inl rfl : (1 : Nat) = 1 ∨ (1 : Nat) = 2 ∨ (1 : Nat) = 3)]
    rw [hbf _ b hb, h2]
    rfl
  · obtain ⟨d, r, outs, h1, h2, h3, h4⟩ := rotateAll_ok int N hN i o mode hm sp sg latN lonN b b' hb hb' l hl
    refine ⟨outs, ?_, h4⟩
    unfold dipoleR shevalDipole
    rw [h1]
    simp only [Option.bind_eq_bind, Option.bind_some, if_pos (Or.inr hm : mode = 1 ∨ mode = 2 ∨ mode = 3)]
    rw [hbf _ b hb, h2, Option.bind_some, h3]
    rcases hm with rfl | rfl <;> rfl

/-- **C68**.  There is one rotation, which takes the direction of the given pole to the z axis
and the Earth's axis to the half plane of the zero (or 180°) dipole longitude, so that each
output of `sheval_dipole` is the output of `sheval` at the rotated Cartesian position with
the gradient rotated back: the output vector `w` (before the scale), in Cartesian components
and rotated, is the gradient `g` of `sheval`.  (Partial: from degree 1.) -/
theorem C68_rotated_partial (latN lonN : ℝ) : ∃ m : M3 ℝ,
    (∀ v w, inner3 (dot v m) (dot w m) = inner3 v w) ∧ det3 m = 1 ∧
    dot (direction latN lonN) m = ⟨0, 0, 1⟩ ∧ (dot ⟨0, 0, 1⟩ m).y = 0 ∧
    (dot ⟨0, 0, 1⟩ m).x = -Real.cos (latN * (Real.pi / 180)) ∧
    ∀ (int : Bool) (N : Nat), 1 ≤ N → ∀ (i o : CT) (mode : Nat), mode = 1 ∨ mode = 2 ∨ mode = 3 →
      ∀ (sp : ℝ) (sg : V3 ℝ) (b b' : Mem ℝ), MemOk b N → MemOk b' N →
      ∀ l : List (V3 ℝ × List (ℝ × ℝ)), (∀ q ∈ l, Pos i q.1 ∧ CoefOk q.2 N) →
        ∃ outs, dipoleR int N i o mode sp sg latN lonN b l = some outs ∧
          List.Forall₂ (fun q u => ∃ c r s, convert libm q.1 (code i) 2 = some c ∧
            convert libm q.1 (code i) (code o) = some r ∧
            shevalR int N .cartesian .cartesian mode sp ⟨1, 1, 1⟩ b' [(dot c m, q.2)] = some [s] ∧ u.1 = s.1 ∧
            (mode ≠ 1 → ∃ w g, u.2 = some ⟨w.x * sg.x, w.y * sg.y, w.z * sg.z⟩ ∧ s.2 = some g ∧
              dot (toCart o r w) m = g)) l outs := by
  refine ⟨dipoleMatrix libm latN lonN, fun v w => (C35_rotation latN lonN v w).1,
    (C35_rotation latN lonN ⟨0, 0, 0⟩ ⟨0, 0, 0⟩).2.1, (C35_rotation latN lonN ⟨0, 0, 0⟩ ⟨0, 0, 0⟩).2.2,
    (C35_meridian latN lonN).1, (C35_meridian latN lonN).2, ?_⟩
  intro int N hN i o mode hm sp sg b b' hb hb' l hl
  exact dipole_core latN lonN int N hN i o mode hm sp sg b b' hb hb' l hl

theorem HasGrad.rotate {f : V3 ℝ → ℝ} {G v : V3 ℝ} {m : M3 ℝ}
    (hm : ∀ v w, inner3 (dot v m) (dot w m) = inner3 v w) (h : HasGrad f (dot G m) (dot v m)) :
    HasGrad (fun p => f (dot p m)) G v := by
  intro c d t hc hd
  have := h (fun s => dot (c s) m) (dot d m) t (by simp only [hc]) (dot_deriv m hd)
  rwa [hm] at this

/-- **C68**, gradients (partial: from degree 1; not next to the poles of the dipole, but at
the poles).  There is one function of the Cartesian position which is the potential output
of `sheval_dipole` and has the gradient output as its gradient. -/
theorem C68_gradient_partial (latN lonN : ℝ) (int : Bool) (N : Nat) (hN : 1 ≤ N) (coef : List (ℝ × ℝ))
    (hc : CoefOk coef N) : ∃ U : V3 ℝ → ℝ,
      (∀ (i o : CT) (mode : Nat) (sp : ℝ) (sg : V3 ℝ) (b : Mem ℝ) (v : V3 ℝ), (mode = 1 ∨ mode = 3) →
        MemOk b N → Pos i v → ∃ c g, convert libm v (code i) 2 = some c ∧
          dipoleR int N i o mode sp sg latN lonN b [(v, coef)] = some [(some (U c * sp), g)]) ∧
      (∀ (i o : CT) (mode : Nat) (sp : ℝ) (sg : V3 ℝ) (b : Mem ℝ) (v d : V3 ℝ), (mode = 2 ∨ mode = 3) →
        MemOk b N → Pos i v → convertToDipole libm v latN lonN (code i) = some d →
        (1 / 10 ^ 10 ≤ |Real.cos (d.x * (Real.pi / 180))| ∨ Real.cos (d.x * (Real.pi / 180)) = 0) →
        ∃ c r w u, convert libm v (code i) 2 = some c ∧ convert libm v (code i) (code o) = some r ∧
          dipoleR int N i o mode sp sg latN lonN b [(v, coef)] =
            some [(u, some ⟨w.x * sg.x, w.y * sg.y, w.z * sg.z⟩)] ∧
          HasGrad U (toCart o r w) c) := by
  obtain ⟨U, u1, u2⟩ := C24_position_partial int N hN coef hc
  have m1 := fun v w => (C35_rotation latN lonN v w).1
  refine ⟨fun p => U (dot p (dipoleMatrix libm latN lonN)), ?_, ?_⟩
  · intro i o mode sp sg b v hm hb hv
    obtain ⟨outs, h1, h2⟩ := dipole_core latN lonN int N hN i o mode (by omega) sp sg b b hb hb [(v, coef)]
      (by intro q hq; rw [List.mem_singleton.mp hq]; exact ⟨hv, hc⟩)
    cases h2 with
    | cons h3 h4 =>
      cases h4
      obtain ⟨c, r, s, e1, e2, e3, e4, -⟩ := h3
      have hi := cart_of_pos hv
      rw [show convert libm v (code i) 2 = some (getFconv libm i .cartesian v) from convert_code i .cartesian v] at e1
      cases Option.some.inj e1
      rw [← m1] at hi
      have hne : dot (getFconv libm i .cartesian v) (dipoleMatrix libm latN lonN) ≠ ⟨0, 0, 0⟩ := by
        intro e
        rw [e] at hi
        simp [inner3] at hi
      obtain ⟨c', g, f1, f2⟩ := u1 .cartesian .cartesian mode sp ⟨1, 1, 1⟩ b _ (by omega) hb hne
      rw [f2] at e3
      cases Option.some.inj f1
      cases (List.cons.inj (Option.some.inj e3)).1
      rename_i u
      obtain ⟨x, y⟩ := u
      exact ⟨_, y, convert_code i .cartesian v, by rw [h1]; congr 3⟩
  · intro i o mode sp sg b v d hm hb hv hd hp
    obtain ⟨outs, h1, h2⟩ := dipole_core latN lonN int N hN i o mode (by omega) sp sg b b hb hb [(v, coef)]
      (by intro q hq; rw [List.mem_singleton.mp hq]; exact ⟨hv, hc⟩)
    cases h2 with
    | cons h3 h4 =>
      cases h4
      obtain ⟨c, r, s, e1, e2, e3, e4, e5⟩ := h3
      obtain ⟨w, g, w1, w2, w3⟩ := e5 (by omega)
      have hi := cart_of_pos hv
      rw [show convert libm v (code i) 2 = some (getFconv libm i .cartesian v) from convert_code i .cartesian v] at e1
      cases Option.some.inj e1
      rw [← m1] at hi
      have hne : dot (getFconv libm i .cartesian v) (dipoleMatrix libm latN lonN) ≠ ⟨0, 0, 0⟩ := by
        intro e
        rw [e] at hi
        simp [inner3] at hi
      have hd' : convert libm (dot (getFconv libm i .cartesian v) (dipoleMatrix libm latN lonN)) (code .cartesian) 1 =
          some d := by
        unfold convertToDipole at hd
        rw [show convert libm v (code i) 2 = some (getFconv libm i .cartesian v) from convert_code i .cartesian v] at hd
        exact hd
      obtain ⟨c', r', w', u', f1, f2, f3, f4⟩ := u2 .cartesian .cartesian mode sp ⟨1, 1, 1⟩ b _ d (by omega) hb hne hd' hp
      rw [f3] at e3
      cases Option.some.inj f1
      have e6 := (List.cons.inj (Option.some.inj e3)).1
      rw [← e6] at w2
      have e7 : w' = g := by
        rw [← Option.some.inj w2]
        simp
      rename_i u
      obtain ⟨x, y⟩ := u
      refine ⟨_, r, w, x, convert_code i .cartesian v, e2, by rw [h1]; congr 3, ?_⟩
      refine HasGrad.rotate m1 ?_
      rw [w3, ← e7]
      exact f4

/-- Arguments meeting the hypotheses: a geodetic point and coefficients of degree 1. -/
example : Pos .geodetic ⟨45, 30, 0⟩ ∧ CoefOk [(0, 0), (-29000, 0), (-1500, 4600)] 1 := by
  refine ⟨⟨by norm_num [abs_le], by norm_num⟩, by simp [CoefOk]⟩

/-- **C68**, rejected arguments, for at least one point: unknown modes and input coordinate
types, and unknown output coordinate types if the gradient is requested. -/
theorem C68_rejects (int : Bool) (N : Nat) (ctIn ctOut : Int) (mode : Nat) (sp : ℝ) (sg : V3 ℝ) (latN lonN : ℝ)
    (b : Mem ℝ) (q : V3 ℝ × List (ℝ × ℝ)) (l : List (V3 ℝ × List (ℝ × ℝ)))
    (h : (mode ≠ 1 ∧ mode ≠ 2 ∧ mode ≠ 3) ∨ (ctIn ≠ 0 ∧ ctIn ≠ 1 ∧ ctIn ≠ 2) ∨
      (mode ≠ 1 ∧ ctOut ≠ 0 ∧ ctOut ≠ 1 ∧ ctOut ≠ 2)) :
    shevalDipole libm nearPole (10 ^ 280) int N ctIn ctOut mode sp sg latN lonN b (q :: l) = none := by
  have hconv : ∀ (v : V3 ℝ) (a c : Int), (a ≠ 0 ∧ a ≠ 1 ∧ a ≠ 2) ∨ (c ≠ 0 ∧ c ≠ 1 ∧ c ≠ 2) → convert libm v a c = none := by
    intro v a c hac
    unfold convert checkCT
    rcases hac with ⟨h0, h1, h2⟩ | ⟨h0, h1, h2⟩ <;> simp [h0, h1, h2]
  unfold shevalDipole
  simp only [List.mapM_cons, Option.bind_eq_bind]
  cases hd : convertToDipole libm q.1 latN lonN ctIn with
  | none => rfl
  | some d =>
    cases hds : l.mapM (fun q => convertToDipole libm q.1 latN lonN ctIn) with
    | none => rfl
    | some ds =>
      simp only [Option.bind_some, Option.pure_def]
      rcases h with h | h | h
      · simp [h]
      · exfalso
        unfold convertToDipole at hd
        rw [hconv _ _ _ (Or.inl h)] at hd
        exact absurd hd (by simp)
      · obtain ⟨h1, h2⟩ := h
        have hr : ∀ r, rotateAll libm latN lonN ctIn ctOut sg ((q :: l).map Prod.fst) (d :: ds) r = none ∨ r = [] := by
          intro r
          cases r with
          | nil => exact Or.inr rfl
          | cons o r =>
            left
            have h3 : ctOut ≠ 2 := h2.2.2
            simp only [List.map_cons, rotateAll, rotateVectorsFromDipole, if_neg h3, hconv _ _ _ (Or.inr h2)]
            cases o.2 <;> rfl
        split
        · rename_i hm
          cases hb : batch libm nearPole (10 ^ 280) (config int N .spherical .spherical sp ⟨1, 1, 1⟩) mode (init b)
              ((d :: ds).zip ((q :: l).map Prod.snd)) with
          | none => rfl
          | some r =>
            simp only [Option.bind_some]
            rcases hr r with e | rfl
            · rw [e]
              simp [h1]
            · exfalso
              simp only [List.map_cons, List.zip_cons_cons, batch, Option.bind_eq_bind] at hb
              revert hb
              cases modelEval libm nearPole (10 ^ 280) (config int N .spherical .spherical sp ⟨1, 1, 1⟩) mode (init b) d q.2 with
              | none => simp
              | some a =>
                intro hb
                obtain ⟨r', -, e⟩ := Option.bind_eq_some_iff.mp (show Option.bind _ _ = some [] from hb)
                obtain ⟨r'', -, e⟩ := Option.bind_eq_some_iff.mp e
                exact absurd (Option.some.inj e) (by simp)
        · rfl

/-- **C68**, an oversight: with the mode POTENTIAL the output coordinate type is not checked. -/
theorem C68_potential_any_output (int : Bool) (N : Nat) (ctIn ctOut ctOut' : Int) (sp : ℝ) (sg sg' : V3 ℝ)
    (latN lonN : ℝ) (b : Mem ℝ) (l : List (V3 ℝ × List (ℝ × ℝ))) :
    shevalDipole libm nearPole (10 ^ 280) int N ctIn ctOut 1 sp sg latN lonN b l =
      shevalDipole libm nearPole (10 ^ 280) int N ctIn ctOut' 1 sp sg' latN lonN b l := rfl

end Verif.Props
