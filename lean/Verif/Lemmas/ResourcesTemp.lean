import Verif.Lemmas.Resources

/-!
# The sets of coefficients of `shevaltemp`
-/

namespace Verif.Res

open V

/-- Variables of `shevaltemp` and of the functions called by it, without the coefficient sets -/
def tempVars : List V :=
  [arr_ct, arr_cv, arr_cm, arr_t, arr_x, arr_scale, arr_grd, arr_pot, V.tuple, model_coef, model_lp,
    model_ldp, model_lcs, model_rrp, model_psqrt, model_prsqrt]

/-- Those of `shevaltemp` alone -/
def tempOwn : List V :=
  [arr_t, arr_x, arr_scale, arr_grd, arr_pot, V.tuple, model_coef, model_lp,
    model_ldp, model_lcs, model_rrp, model_psqrt, model_prsqrt]

theorem coefset_notMem {i : Nat} {v : V} (h : v ∈ coefsetFields i) : isSet v = true := by
  simp only [coefsetFields, List.mem_cons, List.not_mem_nil, or_false] at h
  rcases h with rfl | rfl | rfl | rfl <;> rfl

theorem isSet_false {vs : List V} (h : ∀ w ∈ vs, isSet w = false) {i : Nat} {v : V}
    (hv : v ∈ coefsetFields i) : v ∉ vs := by
  intro q
  have h1 := h v q
  rw [coefset_notMem hv] at h1
  cases h1

theorem coefset_self {i lo c : Nat} (hi : i < lo ∨ c ≤ i) {v : V} (hv : v ∈ coefsetFields i) :
    ¬ InSets lo c v := by
  rintro ⟨j, f, h1, h2, rfl⟩
  simp only [coefsetFields, List.mem_cons, V.coefsets.injEq, List.not_mem_nil, or_false] at hv
  omega

theorem coefset_nodup (i : Nat) : (coefsetFields i).Nodup := by
  simp [coefsetFields]

theorem mem_coefset (i : Nat) (f : CsField) : V.coefsets i f ∈ coefsetFields i := by
  cases f <;> simp [coefsetFields]

variable {T : Bool} {x : Bool}

theorem Tr.coefsetDestroy {A Z N : List V} {r : Option V} {lo c i : Nat} {E : St → Prop}
    (hA : ∀ v ∈ coefsetFields i, v ∈ A) (hs : i < lo ∨ c ≤ i) (hr : ∀ w, r = some w → isSet w = false) :
    Tr T (I A Z N r x lo c) (Res.coefsetDestroy i)
      (fun _ => I A (coefsetFields i ++ Z) (N.filter (· ∉ coefsetFields i)) r x lo c) E := by
  refine Tr.destroy (vs := coefsetFields i) (coefset_nodup i) hA (fun v hv => coefset_self hs hv)
    (fun w hw q => ?_)
  have := hr w hw
  rw [coefset_notMem q] at this
  cases this

/-- Fields of one more set -/
theorem I.pushSet {A Z N : List V} {r : Option V} {lo c : Nat} {s : St}
    (h : I (coefsetFields c ++ A) Z N r x lo c s) (hl : lo ≤ c) (hN : ∀ v ∈ coefsetFields c, v ∈ N) :
    I A Z N r x lo (c + 1) { s with ncoefset := s.ncoefset + 1 } := by
  have key : ∀ v, Mem A lo (c + 1) v ↔ Mem (coefsetFields c ++ A) lo c v := by
    intro v
    constructor
    · rintro (q | ⟨j, f, h1, h2, rfl⟩)
      · exact Or.inl (List.mem_append.2 (Or.inr q))
      · by_cases e : j = c
        · subst e
          exact Or.inl (List.mem_append.2 (Or.inl (mem_coefset _ _)))
        · exact Or.inr ⟨j, f, h1, by omega, rfl⟩
    · rintro (q | ⟨j, f, h1, h2, rfl⟩)
      · rcases List.mem_append.1 q with q | q
        · simp only [coefsetFields, List.mem_cons, List.not_mem_nil, or_false] at q
          rcases q with rfl | rfl | rfl | rfl <;> exact Or.inr ⟨c, _, hl, by omega, rfl⟩
        · exact Or.inl q
      · exact Or.inr ⟨j, f, h1, by omega, rfl⟩
  refine ⟨?_, ?_, ?_, h.lt, h.null, h.nonnull, ?_, h.ret, h.exc, ?_⟩
  · intro v k hv; exact h.owns v k ((key v).1 hv)
  · intro v w k hv hw; exact h.inj v w k ((key v).1 hv) ((key w).1 hw)
  · intro k hk
    obtain ⟨v, hv, e⟩ := h.only k hk
    exact ⟨v, (key v).2 hv, e⟩
  · rintro v ⟨j, f, h1, h2, rfl⟩
    by_cases e : j = c
    · subst e
      exact h.nonnull _ (hN _ (mem_coefset _ _))
    · exact h.sets _ ⟨j, f, h1, by omega, rfl⟩
  · show s.ncoefset + 1 = c + 1
    rw [h.nc]

/-- The first set apart -/
theorem I.popSet {A Z N : List V} {r : Option V} {lo c : Nat} {s : St}
    (h : I A Z N r x lo c s) (hl : lo < c) : I (coefsetFields lo ++ A) Z N r x (lo + 1) c s := by
  have key : ∀ v, Mem A lo c v ↔ Mem (coefsetFields lo ++ A) (lo + 1) c v := by
    intro v
    constructor
    · rintro (q | ⟨j, f, h1, h2, rfl⟩)
      · exact Or.inl (List.mem_append.2 (Or.inr q))
      · by_cases e : j = lo
        · subst e
          exact Or.inl (List.mem_append.2 (Or.inl (mem_coefset _ _)))
        · exact Or.inr ⟨j, f, by omega, h2, rfl⟩
    · rintro (q | ⟨j, f, h1, h2, rfl⟩)
      · rcases List.mem_append.1 q with q | q
        · simp only [coefsetFields, List.mem_cons, List.not_mem_nil, or_false] at q
          rcases q with rfl | rfl | rfl | rfl <;> exact Or.inr ⟨lo, _, Nat.le_refl _, hl, rfl⟩
        · exact Or.inl q
      · exact Or.inr ⟨j, f, by omega, h2, rfl⟩
  refine ⟨?_, ?_, ?_, h.lt, h.null, h.nonnull, ?_, h.ret, h.exc, h.nc⟩
  · intro v k hv; exact h.owns v k ((key v).2 hv)
  · intro v w k hv hw; exact h.inj v w k ((key v).2 hv) ((key w).2 hw)
  · intro k hk
    obtain ⟨v, hv, e⟩ := h.only k hk
    exact ⟨v, (key v).1 hv, e⟩
  · rintro v ⟨j, f, h1, h2, rfl⟩
    exact h.sets _ ⟨j, f, by omega, h2, rfl⟩

theorem Tr.destroyCoefsets {A Z N : List V} {r : Option V} {E : St → Prop} (n lo : Nat)
    (hN : ∀ v ∈ N, isSet v = false) (hr : ∀ w, r = some w → isSet w = false) :
    Tr T (I A Z N r x lo (lo + n)) (Res.destroyCoefsets lo n)
      (fun _ => I A Z N r x (lo + n) (lo + n)) E := by
  induction n generalizing lo with
  | zero => exact Tr.pure (fun _ h => h)
  | succ n ih =>
    refine Tr.bind (R := fun _ => I A Z N r x (lo + 1) (lo + 1 + n)) ?_ (fun _ => ?_)
    · refine (Tr.coefsetDestroy (x := x) (lo := lo + 1) (c := lo + 1 + n) (A := coefsetFields lo ++ A)
        (Z := Z) (N := N) (r := r) (fun v hv => List.mem_append.2 (Or.inl hv)) (Or.inl (by omega))
        hr).mono (fun s h => ?_) (fun _ s h => ?_) (fun _ h => h)
      · have h' : I A Z N r x lo (lo + 1 + n) s := by
          have e : lo + (n + 1) = lo + 1 + n := by omega
          rw [e] at h
          exact h
        exact h'.popSet (by omega)
      · refine h.conv (fun v hv => Or.inl (List.mem_append.2 (Or.inr hv))) ?_
          (List.subset_append_right _ _) ?_
        · intro v hv
          rcases List.mem_append.1 hv with q | q
          · exact Or.inr (List.mem_append.2 (Or.inl q))
          · exact Or.inl q
        · intro v hv
          refine List.mem_filter.2 ⟨hv, ?_⟩
          simp only [decide_eq_true_eq]
          exact fun q => isSet_false hN q hv
    · have e : lo + (n + 1) = lo + 1 + n := by omega
      rw [e]
      exact ih (lo + 1)

theorem Tr.destroyAllCoefsets {A Z N : List V} {r : Option V} {E : St → Prop} {n : Nat}
    (hN : ∀ v ∈ N, isSet v = false) (hr : ∀ w, r = some w → isSet w = false) :
    Tr T (I A Z N r x 0 n) (fun e s => Res.destroyCoefsets 0 s.ncoefset e s)
      (fun _ => I A Z N r x n n) E := by
  intro e ht s h
  have := Tr.destroyCoefsets (T := T) (x := x) (A := A) (Z := Z) (N := N) (r := r) (E := E) n 0 hN hr e ht s
    (by rw [Nat.zero_add]; exact h)
  rw [Nat.zero_add] at this
  have hc : s.ncoefset = n := h.nc
  dsimp only
  rw [hc]
  exact this

theorem Tr.useCoefsets {A Z N : List V} {r : Option V} {E : St → Prop} {c : Nat} (n i : Nat)
    (h : i + n ≤ c) :
    Tr T (I A Z N r x 0 c) (Res.useCoefsets i n) (fun _ => I A Z N r x 0 c) E := by
  induction n generalizing i with
  | zero => exact Tr.pure (fun _ h => h)
  | succ n ih =>
    refine Tr.bind (Tr.useAll (fun v hv => ?_)) (fun _ => ih (i + 1) (by omega))
    have : InSets 0 c v := by
      simp only [coefsetFields, List.mem_cons, List.not_mem_nil, or_false] at hv
      rcases hv with rfl | rfl | rfl | rfl <;> exact ⟨i, _, Nat.zero_le _, by omega, rfl⟩
    exact ⟨Or.inr this, Or.inr this⟩

/-- What is left by a failing `parse_coefset` -/
abbrev TempFail (c : Nat) : St → Prop := I tempOwn tempOwn [] none true 0 c

theorem Tr.coefsetInit {E : St → Prop} (c : Nat) :
    Tr T (I tempVars tempOwn [arr_ct, arr_cv, arr_cm] none x 0 c) (Res.coefsetInit c)
      (fun b s => if b then TempFail c s
        else I (coefsetFields c ++ tempVars) tempVars (coefsetFields c) none x 0 c s) E := by
  have hsv : ∀ w ∈ tempVars, isSet w = false := by decide
  have hso : ∀ w ∈ tempOwn, isSet w = false := by decide
  have sub : ∀ w ∈ tempOwn, w ∈ tempVars := by decide
  have sub' : ∀ w ∈ tempVars, w ∈ tempOwn ∨ w ∈ [arr_ct, arr_cv, arr_cm] := by decide
  have ns : ∀ v ∈ coefsetFields c, ¬ InSets 0 c v := fun v hv => coefset_self (Or.inr (Nat.le_refl _)) hv
  refine (Tr.onError (E' := I (coefsetFields c ++ tempVars) tempVars [] none true 0 c)
    (Q := fun _ => I (coefsetFields c ++ tempVars) tempVars (coefsetFields c) none x 0 c)
    (R := fun _ => TempFail c) ?_ ?_).mono (fun _ h => h) (fun b s h => h) (fun _ h => h)
  · refine Tr.bind (Tr.reset (fun v hv => Or.inr (isSet_false hsv hv)) ns (by simp)) (fun _ => ?_)
    have mA : ∀ v, v ∈ tempVars → v ∈ coefsetFields c ++ tempVars :=
      fun v hv => List.mem_append.2 (Or.inr hv)
    have mF : ∀ f, V.coefsets c f ∈ coefsetFields c ++ tempVars :=
      fun f => List.mem_append.2 (Or.inl (mem_coefset c f))
    refine Tr.bind (Tr.move (mA _ (by decide)) (mF _)
      (List.mem_append.2 (Or.inl (mem_coefset c .ct)))
      (by simp [coefsetFields]) (notSet _ _ _ rfl) (by simp) rfl rfl) (fun _ => ?_)
    refine Tr.bind (Tr.move (mA _ (by decide)) (mF _)
      (by simp [coefsetFields])
      (by simp [coefsetFields]) (notSet _ _ _ rfl) (by simp) rfl rfl) (fun _ => ?_)
    refine Tr.bind (Tr.move (mA _ (by decide)) (mF _)
      (by simp [coefsetFields])
      (by simp [coefsetFields]) (notSet _ _ _ rfl) (by simp) rfl rfl) (fun _ => ?_)
    refine Tr.bind (Tr.acquire (mF _) (by simp [coefsetFields]) rfl (fun s h => ?_)) (fun _ => ?_)
    · refine h.weaken ?_ (List.nil_subset _)
      intro v hv
      have hn : isSet v = false := hsv v hv
      rcases sub' v hv with q | q
      · simp only [List.mem_cons, List.mem_filter, List.mem_append, decide_eq_true_eq, q, or_true, true_and]
        refine Or.inr ⟨Or.inr ⟨Or.inr ?_, ?_⟩, ?_⟩ <;> rintro rfl <;> cases hn
      · simp only [List.mem_cons, List.not_mem_nil, or_false] at q
        rcases q with rfl | rfl | rfl <;> simp
    · refine Tr.bind (Tr.useAll' (fun v hv => ?_)) (fun _ => ?_)
      · simp only [List.mem_cons, List.not_mem_nil, or_false] at hv
        rcases hv with rfl | rfl
        · exact ⟨mF _, by simp⟩
        · exact ⟨mF _, by simp⟩
      · refine (Tr.check rfl (fun s h => ?_)).mono (fun _ h => h) (fun _ s h => ?_) (fun _ h => h)
        · refine h.weaken ?_ (List.nil_subset _)
          intro v hv
          have hn : isSet v = false := hsv v hv
          rcases sub' v hv with q | q
          · simp only [List.mem_cons, List.mem_filter, List.mem_append, decide_eq_true_eq, q, or_true,
              true_and]
            refine ⟨Or.inr ⟨Or.inr ⟨Or.inr ?_, ?_⟩, ?_⟩, ?_⟩ <;> rintro rfl <;> cases hn
          · simp only [List.mem_cons, List.not_mem_nil, or_false] at q
            rcases q with rfl | rfl | rfl <;> simp
        · refine h.weaken ?_ ?_
          · intro v hv
            have hn : isSet v = false := hsv v hv
            rcases sub' v hv with q | q
            · simp only [List.mem_cons, List.mem_filter, List.mem_append, decide_eq_true_eq, q, or_true,
                true_and]
              refine ⟨Or.inr ⟨Or.inr ⟨Or.inr ?_, ?_⟩, ?_⟩, ?_⟩ <;> rintro rfl <;> cases hn
            · simp only [List.mem_cons, List.not_mem_nil, or_false] at q
              rcases q with rfl | rfl | rfl <;> simp
          · intro v hv
            simp only [coefsetFields, List.mem_cons, List.not_mem_nil, or_false] at hv
            rcases hv with rfl | rfl | rfl | rfl <;> simp
  · refine (Tr.coefsetDestroy (fun v hv => List.mem_append.2 (Or.inl hv)) (Or.inr (Nat.le_refl _))
      (by simp)).mono (fun _ h => h) (fun _ s h => ?_) (fun _ h => h)
    refine h.conv ?_ ?_ ?_ (List.nil_subset _)
    · intro v hv
      exact Or.inl (List.mem_append.2 (Or.inr (sub v hv)))
    · intro v hv
      rcases List.mem_append.1 hv with q | q
      · exact Or.inr (List.mem_append.2 (Or.inl q))
      · exact Or.inr (List.mem_append.2 (Or.inr q))
    · intro v hv
      exact List.mem_append.2 (Or.inr (sub v hv))

theorem Tr.parseCoefset {E : St → Prop} (c : Nat) :
    Tr T (I tempVars tempVars [] none x 0 c) (Res.parseCoefset c)
      (fun b s => if b then TempFail c s
        else I (coefsetFields c ++ tempVars) tempVars (coefsetFields c) none x 0 c s) E := by
  refine Tr.bind (R := fun _ => I tempVars tempVars [] none x 0 c) ?_ (fun _ => ?_)
  · refine (Tr.reset (by decide) (fun v hv => notSet _ _ v ((by decide : ∀ w ∈ _, isSet w = false) v hv))
      (by simp)).mono (fun _ h => h) (fun _ s h => ?_) (fun _ h => h)
    exact h.conv' (by decide) (by decide) (by decide)
  · refine Tr.orElseReturn (R := TempFail c)
      (Q := I tempVars tempOwn [arr_ct, arr_cv, arr_cm] none x 0 c) ?_ (fun s h => h) (Tr.coefsetInit c)
    refine (Tr.onError (E' := I tempVars tempOwn [] none true 0 c)
      (Q := fun _ => I tempVars tempOwn [arr_ct, arr_cv, arr_cm] none x 0 c)
      (R := fun _ => TempFail c) ?_ ?_).mono (fun _ h => h) (fun b s h => h) (fun _ h => h)
    · repeat rstep
      refine (Tr.check rfl (fun s h => h.weaken' (by decide))).mono (fun _ h => h) (fun _ s h => ?_)
        (fun _ h => h)
      exact h.weaken (fun v hv => (by decide : ∀ w ∈ tempOwn, w ∈ _) v hv)
        (fun v hv => (by decide : ∀ w ∈ [arr_ct, arr_cv, arr_cm], w ∈ _) v hv)
    · repeat rstep
      refine (Tr.release (by decide) (notSet _ _ _ rfl)).mono (fun _ h => h) (fun _ s h => ?_)
        (fun _ h => h)
      exact h.conv' (by decide) (by decide) (by decide)

theorem Tr.parseCoefsets {E : St → Prop} (n i : Nat) (hE : ∀ c s, TempFail c s → E s) :
    Tr T (I tempVars tempVars [] none x 0 i) (Res.parseCoefsets i n)
      (fun _ => I tempVars tempVars [] none x 0 (i + n)) E := by
  induction n generalizing i with
  | zero => exact Tr.pure (fun _ h => h)
  | succ n ih =>
    refine Tr.bind (Tr.failIf (Tr.parseCoefset i) (fun s h => hE i s h)) (fun _ => ?_)
    refine Tr.bind (R := fun _ => I tempVars tempVars [] none x 0 (i + 1)) ?_ (fun _ => ?_)
    · intro e ht s h
      exact (h.pushSet (Nat.zero_le _) (fun v hv => hv)).weaken (fun v hv => hv) (List.nil_subset _)
    · have e : i + (n + 1) = i + 1 + n := by omega
      rw [e]
      exact ih (i + 1)

theorem Tr.parseAllCoefsets {E : St → Prop} {n : Nat} (hE : ∀ c s, TempFail c s → E s) :
    Tr T (I tempVars tempVars [] none x 0 0) (Res.parseCoefsets 0 n)
      (fun _ => I tempVars tempVars [] none x 0 n) E := by
  have := Tr.parseCoefsets (T := T) (x := x) (E := E) n 0 hE
  rwa [Nat.zero_add] at this

theorem Tr.exists {α β : Type} {P : β → St → Prop} {m : M α} {Q : α → St → Prop} {E : St → Prop}
    (h : ∀ b, Tr T (P b) m Q E) : Tr T (fun s => ∃ b, P b s) m Q E := by
  rintro e ht s ⟨b, hb⟩
  exact h b e ht s hb

end Verif.Res
