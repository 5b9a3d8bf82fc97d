import Verif.Lemmas.Resources2dfs
import Verif.Spec.Resources

/-!
# The functions of the extension modules, one by one
-/

namespace Verif.Res

open Verif.Spec V

/-- End of a call: everything released, and a result or an exception unless `x`. -/
def CallDone (x : Bool) (s : St) : Prop := Released s ∧ (x = false → ResultOrException s)

theorem callDone_none {A Z N : List V} {x : Bool} {lo c : Nat} {s : St} (h : I A Z N none true lo c s)
    (hA : ∀ v ∈ A, v ∈ Z) (hc : c ≤ lo) : CallDone x s := by
  obtain ⟨h1, h2⟩ := h.final_none hA hc
  refine ⟨?_, fun _ => ?_⟩
  · unfold Released
    rw [h1]
    exact h2
  · exact ⟨fun _ => h.exc, fun _ => h1⟩

theorem callDone_some {A Z N : List V} {w : V} {x : Bool} {lo c : Nat} {s : St}
    (h : I A Z N (some w) x lo c s)
    (hA : ∀ v ∈ A, v = w ∨ v ∈ Z) (hw : w ∈ A ∧ w ∈ N) (hk : kindOf w = .ref) (hc : c ≤ lo) :
    CallDone x s := by
  obtain ⟨k, h1, h2⟩ := h.final_some hA hw hk hc
  refine ⟨?_, fun hx => ?_⟩
  · unfold Released
    rw [h1]
    exact h2
  · have := h.exc
    rw [hx] at this
    unfold ResultOrException
    rw [h1, this]
    simp

theorem callDone_true {x : Bool} {s : St} (h : CallDone x s) : CallDone true s := ⟨h.1, by simp⟩

/-- The last statement at a label. -/
macro "rend" : tactic => `(tactic| first
  | exact (Tr.unlessNull (by decide +kernel) (notSet _ _ _ rfl) rfl).mono (fun _ h => h)
      (fun _ s h => callDone_none h (by decide +kernel) (Nat.le_refl _)) (fun _ h => h)
  | exact (Tr.unlessSome rfl (by decide +kernel)).mono (fun _ h => h)
      (fun _ s h => callDone_some h (by decide +kernel) (by decide +kernel) rfl (Nat.le_refl _)) (fun _ h => h)
  | exact (Tr.unlessSome rfl (by decide +kernel)).mono (fun _ h => h)
      (fun _ s h => callDone_true (callDone_some h (by decide +kernel) (by decide +kernel) rfl (Nat.le_refl _)))
      (fun _ h => h))

section
attribute [local irreducible] goto acquire check Res.isTrue use useAll release releaseAll reset move setRet
  releaseUnlessReturned buildTuple onError failIf ignoreResult orElseReturn fourier2dInit
  fourier2dDestroy modelInit modelDestroy modelTsInit modelTsDestroy optionalFlag scaleFactors

/-- A function with a label `exit`, whose statements all have a rule. -/
macro "rfun" a:term "," z:term : tactic => `(tactic| (
  refine Tr.withExit (E := I $a $z [] none true 0 0) ?_ ?_
  · repeat rstep
    rlast
    repeat rstep
    rend
  · repeat rstep
    rend))

/-- A call of a function with the variables `A`, which are null at the beginning. -/
abbrev ResFun (T : Bool) (A : List V) (m : M Unit) (x : Bool) : Prop :=
  Tr T (I A A [] none false 0 0) m (fun _ => CallDone x) (fun _ => False)

theorem res_bisect (T : Bool) : ResFun T [arr_x, arr_v, arr_i] bisect false := by
  rfun [arr_x, arr_v, arr_i], []

theorem res_interp (T : Bool) (f : Option Bool) :
    ResFun T [arr_t, arr_t0, arr_c0, arr_c] (interp f) (badFlag f) := by
  rfun [arr_t, arr_t0, arr_c0, arr_c], []

theorem res_vrotSph2geod (T : Bool) : ResFun T [arr_in, arr_dlat, arr_out] vrotSph2geod false := by
  rfun [arr_in, arr_dlat, arr_out], []

theorem res_vrotSphCart (T : Bool) : ResFun T [arr_in, arr_lat, arr_lon, arr_out] vrotSphCart false := by
  rfun [arr_in, arr_lat, arr_lon, arr_out], []

theorem res_timeconv (T : Bool) : ResFun T [arr_in, arr_out] timeconv false := by
  rfun [arr_in, arr_out], []

theorem res_loncossin (T : Bool) : ResFun T [arr_lon, arr_cos_sin] loncossin false := by
  rfun [arr_lon, arr_cos_sin], []

theorem res_relradpow (T : Bool) (f : Option Bool) :
    ResFun T [arr_rad, arr_rrp] (relradpow f) (badFlag f) := by
  rfun [arr_rad, arr_rrp], []

theorem res_spharpot (T : Bool) :
    ResFun T [arr_rad, arr_coef, arr_lp, arr_rrp, arr_lcs, arr_pot] spharpot false := by
  rfun [arr_rad, arr_coef, arr_lp, arr_rrp, arr_lcs, arr_pot], []

theorem res_sphargrd (T : Bool) (f : Option Bool) :
    ResFun T [arr_lat, arr_coef, arr_lp, arr_ldp, arr_rrp, arr_lcs, arr_grd] (sphargrd f) (badFlag f) := by
  rfun [arr_lat, arr_coef, arr_lp, arr_ldp, arr_rrp, arr_lcs, arr_grd], []

theorem res_sunpos (T : Bool) :
    ResFun T [arr_mjd, arr_lat, arr_lon, arr_rad, arr_dtt, arr_out] sunpos false := by
  rfun [arr_mjd, arr_lat, arr_lon, arr_rad, arr_dtt, arr_out], []

theorem res_sunposOriginal (T : Bool) :
    ResFun T [arr_mjd, arr_lat, arr_lon, arr_rad, arr_dtt, arr_pres, arr_temp, arr_out] sunposOriginal
      false := by
  rfun [arr_mjd, arr_lat, arr_lon, arr_rad, arr_dtt, arr_pres, arr_temp, arr_out], []

theorem res_evalMlt (T : Bool) : ResFun T [arr_qdlon, arr_time, arr_mlt] evalMlt false := by
  rfun [arr_qdlon, arr_time, arr_mlt], []

theorem res_fourier2d (T : Bool) :
    ResFun T [arr_t1, arr_t2, arr_c0, arr_c, f2d_tmp, f2d_1, f2d_2, f2d_12] fourier2d false := by
  rfun [arr_t1, arr_t2, arr_c0, arr_c, f2d_tmp, f2d_1, f2d_2, f2d_12], []

theorem res_legendre :
    ResFun true [arr_lat, arr_p, arr_dp, psqrt, prsqrt, V.tuple] legendre false := by
  rfun [arr_lat, arr_p, arr_dp, psqrt, prsqrt, V.tuple], [V.tuple]

theorem res_evalSubsol :
    ResFun true [arr_time, arr_gdlat, arr_gdlon, V.tuple] evalSubsol false := by
  rfun [arr_time, arr_gdlat, arr_gdlon, V.tuple], [V.tuple]

theorem res_evalQdlatlon (b f : Bool) :
    ResFun true [arr_gclat, arr_gclon, arr_gcrad, arr_time, arr_qdlat, arr_qdlon, arr_f11, arr_f12,
      arr_f21, arr_f22, arr_f, V.tuple] (evalQdlatlon b f) (!f) := by
  cases b <;> cases f <;>
    simp only [evalQdlatlon, evalQdlatlonOutputs, Bool.and_true, Bool.and_false, Bool.and_self, bind_assoc'] <;>
    rfun [arr_gclat, arr_gclon, arr_gcrad, arr_time, arr_qdlat, arr_qdlon, arr_f11, arr_f12,
      arr_f21, arr_f22, arr_f, V.tuple], [V.tuple]

theorem res_sheval_pot (T : Bool) (f : Option Bool) (b : Bool) :
    ResFun T [arr_x, arr_coef, arr_scale, arr_grd, arr_pot, model_lp, model_ldp, model_lcs, model_rrp,
      model_psqrt, model_prsqrt] (sheval .pot f b) (badFlag f) := by
  simp only [sheval, newOutputs, evalMode, bind_assoc']
  rfun [arr_x, arr_coef, arr_scale, arr_grd, arr_pot, model_lp, model_ldp, model_lcs, model_rrp,
      model_psqrt, model_prsqrt], []

theorem res_sheval_grd (T : Bool) (f : Option Bool) (b : Bool) :
    ResFun T [arr_x, arr_coef, arr_scale, arr_grd, arr_pot, model_lp, model_ldp, model_lcs, model_rrp,
      model_psqrt, model_prsqrt] (sheval .grd f b) (badFlag f) := by
  simp only [sheval, newOutputs, evalMode, bind_assoc']
  rfun [arr_x, arr_coef, arr_scale, arr_grd, arr_pot, model_lp, model_ldp, model_lcs, model_rrp,
      model_psqrt, model_prsqrt], []

theorem res_sheval_both (f : Option Bool) (b : Bool) :
    ResFun true [arr_x, arr_coef, arr_scale, arr_grd, arr_pot, model_lp, model_ldp, model_lcs, model_rrp,
      model_psqrt, model_prsqrt, V.tuple] (sheval .both f b) (badFlag f) := by
  simp only [sheval, newOutputs, evalMode, bind_assoc']
  rfun [arr_x, arr_coef, arr_scale, arr_grd, arr_pot, model_lp, model_ldp, model_lcs, model_rrp,
      model_psqrt, model_prsqrt, V.tuple], [V.tuple]

theorem res_convert (T b : Bool) : ResFun T [arr_in, arr_out] (convert b) false := by
  refine Tr.matchOut (Q := I [arr_in, arr_out] [arr_out] [arr_in] none false 0 0)
    (E' := I [arr_in, arr_out] [] [] none true 0 0) ?_ ?_ ?_
  · repeat rstep
    refine (Tr.check rfl (fun s h => h.weaken' (by decide))).mono (fun _ h => h) (fun _ s h => ?_)
      (fun _ h => h)
    exact h.weaken (fun v hv => (by decide : ∀ w ∈ [arr_out], w ∈ _) v hv)
      (fun v hv => (by decide : ∀ w ∈ [arr_in], w ∈ _) v hv)
  · cases b
    · rw [if_neg (by simp)]
      rfun [arr_in, arr_out], []
    · rw [if_pos rfl]
      exact Tr.setRet.mono (fun _ h => h)
        (fun _ s h => callDone_some h (by decide) (by decide) rfl (Nat.le_refl _)) (fun _ h => h)
  · repeat rstep
    rend

/-- The same for `shevaltemp` -/
macro "tfun" : tactic => `(tactic| (
  refine Tr.withExit (E := fun s => ∃ c, I tempOwn [V.tuple] [] none true 0 c s) ?_ ?_
  · repeat rstep
    refine Tr.bind (Tr.parseAllCoefsets (fun c s h => ⟨c, h.weaken' (by decide)⟩)) (fun _ => ?_)
    repeat rstep
    refine Tr.bind (Tr.useCoefsets _ _ (by omega)) (fun _ => ?_)
    repeat rstep
    rlast
    repeat rstep
    refine Tr.bind (Tr.destroyAllCoefsets (by decide) (by simp [isSet])) (fun _ => ?_)
    repeat rstep
    rend
  · refine Tr.exists (fun c => ?_)
    repeat rstep
    refine Tr.bind (Tr.destroyAllCoefsets (by decide) (by simp [isSet])) (fun _ => ?_)
    repeat rstep
    rend))

theorem res_shevaltemp_pot (T : Bool) (n : Nat) (f : Option Bool) (b : Bool) :
    ResFun T tempVars (shevaltemp n .pot f b) (badFlag f) := by
  simp only [shevaltemp, newOutputs, evalMode, bind_assoc']
  tfun

theorem res_shevaltemp_grd (T : Bool) (n : Nat) (f : Option Bool) (b : Bool) :
    ResFun T tempVars (shevaltemp n .grd f b) (badFlag f) := by
  simp only [shevaltemp, newOutputs, evalMode, bind_assoc']
  tfun

theorem res_shevaltemp_both (n : Nat) (f : Option Bool) (b : Bool) :
    ResFun true tempVars (shevaltemp n .both f b) (badFlag f) := by
  simp only [shevaltemp, newOutputs, evalMode, bind_assoc']
  tfun

/-- The same for `sheval2dfs` with the release of `offset` -/
macro "dfun" : tactic => `(tactic| (
  refine Tr.withExit (E := fun s => ∃ c : Nat, I dfsOwn [V.tuple] [] none true c c s) ?_ ?_
  · repeat rstep
    refine Tr.bind (Tr.ignoreResult ((Tr.f2dParseAll).mono (fun s h => h.weakenAll (by decide) (by decide))
      (fun _ s h => h) (fun _ h => h))) (fun _ => ?_)
    refine Tr.or ?_ ?_
    · repeat rstep
      rlast
      repeat rstep
      refine Tr.bind (Tr.f2dDestroyAll (by decide) (by simp [dfsCoef])) (fun _ => ?_)
      repeat rstep
      rend
    · repeat rstep
      rlast
      repeat rstep
      refine Tr.bind (Tr.f2dDestroyAll (by decide) (by simp [dfsCoef])) (fun _ => ?_)
      repeat rstep
      rend
  · refine Tr.exists (fun c => ?_)
    repeat rstep
    refine Tr.bind (Tr.f2dDestroyAll (by decide) (by simp [dfsCoef])) (fun _ => ?_)
    repeat rstep
    rend))

theorem res_dfsAll_pot (T : Bool) (f : Option Bool) (b : Bool) :
    ResFun T dfsVars (dfsAll .pot f b) true := by
  simp only [dfsAll, dfsStart, dfsRest, dfsEnd, newOutputs, evalMode, bind_assoc']
  dfun

theorem res_dfsAll_grd (T : Bool) (f : Option Bool) (b : Bool) :
    ResFun T dfsVars (dfsAll .grd f b) true := by
  simp only [dfsAll, dfsStart, dfsRest, dfsEnd, newOutputs, evalMode, bind_assoc']
  dfun

theorem res_dfsAll_both (f : Option Bool) (b : Bool) :
    ResFun true dfsVars (dfsAll .both f b) true := by
  simp only [dfsAll, dfsStart, dfsRest, dfsEnd, newOutputs, evalMode, bind_assoc']
  dfun

/-- What the body of `sheval2dfs` leaves -/
abbrev DfsBody (T : Bool) (m : M Unit) : Prop :=
  Tr T (I dfsVars dfsVars [] none false 0 0) m
    (fun _ t => t.exc = false → t.loc coefset_offset ≠ none) (fun t => t.exc = true)

macro "bfun" : tactic => `(tactic| (
  refine Tr.mono (E := fun s => ∃ c : Nat, I dfsOwn [V.tuple] [] none true c c s)
    (Q := fun _ t => t.exc = false → t.loc coefset_offset ≠ none) ?_ (fun _ h => h) (fun _ _ h => h)
    (fun _ ⟨_, h⟩ => h.exc)
  repeat rstep
  refine Tr.bind (Tr.ignoreResult ((Tr.f2dParseAll).mono (fun s h => h.weakenAll (by decide) (by decide))
    (fun _ s h => h) (fun _ h => h))) (fun _ => ?_)
  refine Tr.or ?_ ?_
  · repeat rstep
    first
    | exact Tr.setRet.mono (fun _ h => h) (fun _ s h _ => h.nonnull _ (by decide)) (fun _ h => h)
    | exact (Tr.buildTuple rfl (by decide +kernel) (by decide +kernel)
        (fun v hv => notSet _ _ v ((by decide +kernel : ∀ w ∈ _, isSet w = false) v hv)) (by decide +kernel)
        (by decide +kernel) rfl).mono (fun _ h => h) (fun _ s h _ => h.nonnull _ (by decide)) (fun _ h => h)
  · repeat rstep
    first
    | exact Tr.setRet.mono (fun _ h => h) (fun _ s h q => by rw [h.exc] at q; cases q) (fun _ h => h)
    | exact (Tr.buildTuple rfl (by decide +kernel) (by decide +kernel)
        (fun v hv => notSet _ _ v ((by decide +kernel : ∀ w ∈ _, isSet w = false) v hv)) (by decide +kernel)
        (by decide +kernel) rfl).mono (fun _ h => h) (fun _ s h q => by rw [h.exc] at q; cases q) (fun _ h => h)))

theorem dfsBody_pot (T : Bool) (f : Option Bool) (b : Bool) :
    DfsBody T (do dfsStart f; ignoreResult f2dParseAll; dfsRest .pot b : M Unit) := by
  simp only [dfsStart, dfsRest, newOutputs, evalMode, bind_assoc']
  bfun

theorem dfsBody_grd (T : Bool) (f : Option Bool) (b : Bool) :
    DfsBody T (do dfsStart f; ignoreResult f2dParseAll; dfsRest .grd b : M Unit) := by
  simp only [dfsStart, dfsRest, newOutputs, evalMode, bind_assoc']
  bfun

theorem dfsBody_both (f : Option Bool) (b : Bool) :
    DfsBody true (do dfsStart f; ignoreResult f2dParseAll; dfsRest .both b : M Unit) := by
  simp only [dfsStart, dfsRest, newOutputs, evalMode, bind_assoc']
  bfun

end

end Verif.Res
