import Verif.Lemmas.ResourcesTemp

/-!
# `sheval2dfs` and the memory it loses

The function is compared with one which also releases the field `offset` of the coefficients: that one
releases everything, and the states of both differ only by one block of memory.
-/

namespace Verif.Res

open V

/-! ### The function with the release of `offset` -/

def f2dDestroyAll : M Unit := do
  release coefset_offset
  f2dCoefsetDestroy

def f2dInitAll : M Bool := onError
  (do
    move arr_ab coefset_ab
    move arr_cm coefset_cm
    acquire coefset_offset
    useAll [coefset_cm, coefset_offset]
    failIf fourier2dInit)
  f2dDestroyAll

def f2dParseAll : M Bool := do
  reset [arr_ab, arr_cm]
  orElseReturn (onError
    (do
      check; check; check; check; check; check; check; check
      acquire arr_ab
      acquire arr_cm
      use arr_ab
      check
      use arr_cm
      check
      useAll [arr_ab, arr_cm]
      check)
    (do
      release arr_ab
      release arr_cm))
    f2dInitAll

def dfsEnd : M Unit := do
  release arr_t1
  release arr_t2
  release arr_x
  release arr_scale
  releaseUnlessReturned arr_grd
  releaseUnlessReturned arr_pot

def dfsRest (mode : Mode) (scale : Bool) : M Unit := do
  check
  scaleFactors scale
  useAll [arr_t1, arr_t2, arr_x]
  newOutputs mode
  failIf modelTsInit
  evalMode mode [arr_t1, arr_t2, arr_x] (model_coef :: modelFields)

def dfsStart (isInternal : Option Bool) : M Unit := do
  check
  optionalFlag isInternal
  check; check; check
  acquire arr_t1
  acquire arr_t2
  acquire arr_x
  useAll [arr_t1, arr_t2, arr_x]
  check; check; check
  check

def dfsAll (mode : Mode) (isInternal : Option Bool) (scale : Bool) : M Unit := withExit
  (do
    dfsStart isInternal
    ignoreResult f2dParseAll
    dfsRest mode scale)
  (do
    modelTsDestroy
    f2dDestroyAll
    dfsEnd)

/-- The function itself, without points, in the same parts -/
theorem sheval2dfs_parts (mode : Mode) (isInternal : Option Bool) (scale : Bool) :
    sheval2dfs mode isInternal scale false = withExit
      (do
        dfsStart isInternal
        ignoreResult f2dCoefsetParse
        dfsRest mode scale)
      (do
        modelTsDestroy
        f2dCoefsetDestroy
        dfsEnd) := by
  simp only [sheval2dfs, dfsStart, dfsRest, dfsEnd, bind_assoc', useIf, Bool.false_eq_true, if_false,
    pure_bind']

/-! ### It releases everything -/

def dfsVars : List V :=
  [arr_ab, arr_cm, arr_t1, arr_t2, arr_x, arr_scale, arr_grd, arr_pot, V.tuple, coefset_ab, coefset_cm,
    coefset_offset, f2d_tmp, f2d_1, f2d_2, f2d_12, model_coef, model_lp, model_ldp, model_lcs, model_rrp,
    model_psqrt, model_prsqrt]

/-- Without those of the parser -/
def dfsOwn : List V := dfsVars.filter (· ∉ [arr_ab, arr_cm])

/-- Null after the parser -/
def dfsNull : List V :=
  [arr_scale, arr_grd, arr_pot, V.tuple, model_coef, model_lp, model_ldp, model_lcs, model_rrp,
    model_psqrt, model_prsqrt]

def dfsCoef : List V := [coefset_ab, coefset_cm, coefset_offset, f2d_tmp, f2d_1, f2d_2, f2d_12]

variable {T : Bool} {x : Bool}

theorem Tr.f2dDestroyAll {A Z N : List V} {r : Option V} {lo c : Nat} {E : St → Prop}
    (hA : ∀ v ∈ dfsCoef, v ∈ A) (hr : ∀ w, r = some w → w ∉ dfsCoef) :
    Tr T (I A Z N r x lo c) Res.f2dDestroyAll
      (fun _ => I A (dfsCoef ++ Z) (N.filter (· ∉ dfsCoef)) r x lo c) E := by
  have hs : ∀ w ∈ dfsCoef, isSet w = false := by decide
  have m1 : ∀ v, v ∈ dfsCoef → v ≠ coefset_offset → v ∈ A.filter (· ≠ coefset_offset) :=
    fun v hv q => List.mem_filter.2 ⟨hA v hv, by simpa using q⟩
  refine Tr.bind (Tr.release (hA _ (by decide)) (notSet _ _ _ rfl)) (fun _ => ?_)
  refine Tr.bind (Tr.release (m1 _ (by decide) (by decide)) (notSet _ _ _ rfl)) (fun _ => ?_)
  refine Tr.bind (Tr.release (List.mem_filter.2 ⟨m1 _ (by decide) (by decide), by decide⟩)
    (notSet _ _ _ rfl)) (fun _ => ?_)
  refine Tr.bind (Tr.fourier2dDestroy (fun v hv => ?_) (fun v hv => notSet _ _ v
    ((by decide : ∀ w ∈ f2dFields, isSet w = false) v hv))
    (fun w hw q => hr w hw ((by decide : ∀ w ∈ f2dFields, w ∈ dfsCoef) w q))) (fun _ => ?_)
  · have h1 := (by decide : ∀ w ∈ f2dFields, w ∈ dfsCoef ∧ w ≠ coefset_offset ∧ w ≠ coefset_ab ∧
      w ≠ coefset_cm) v hv
    refine List.mem_filter.2 ⟨List.mem_filter.2 ⟨m1 v h1.1 h1.2.1, ?_⟩, ?_⟩
    · simpa using h1.2.2.1
    · simpa using h1.2.2.2
  · refine (Tr.reset (vs := dfsCoef) (fun v hv => ?_) (fun v hv => notSet _ _ v (hs v hv)) hr).mono
      (fun _ h => h) (fun _ s h => ?_) (fun _ h => h)
    · simp only [dfsCoef, List.mem_cons, List.not_mem_nil, or_false] at hv
      rcases hv with rfl | rfl | rfl | rfl | rfl | rfl | rfl <;> simp [f2dFields]
    · refine h.conv ?_ ?_ ?_ ?_
      · intro v hv
        by_cases q : v ∈ dfsCoef
        · exact Or.inl (List.mem_append.2 (Or.inl q))
        · refine Or.inl (List.mem_append.2 (Or.inr ?_))
          simp only [dfsCoef, List.mem_cons, List.not_mem_nil, or_false, not_or] at q
          simp [hv, q]
      · intro v hv
        rcases List.mem_append.1 hv with q | q
        · exact Or.inl (hA v q)
        · simp only [List.mem_filter] at q
          exact Or.inl q.1.1.1
      · intro v hv
        rcases List.mem_append.1 hv with q | q
        · exact List.mem_append.2 (Or.inl q)
        · exact List.mem_append.2 (Or.inr (List.mem_append.2 (Or.inr q)))
      · intro v hv
        simp only [List.mem_filter, decide_eq_true_eq] at hv ⊢
        exact ⟨⟨hv.1, fun q => hv.2 ((by decide : ∀ w ∈ f2dFields, w ∈ dfsCoef) v q)⟩, hv.2⟩

theorem I.weakenAll {A Z N Z' N' : List V} {r : Option V} {lo c : Nat} {s : St}
    (h : I A Z N r x lo c s) (hZ : ∀ v ∈ Z', v ∈ Z) (hN : ∀ v ∈ N', v ∈ N) : I A Z' N' r x lo c s :=
  h.weaken (fun v hv => hZ v hv) (fun v hv => hN v hv)

/-- After the parser -/
abbrev dfsAfter (x : Bool) (s : St) : Prop :=
  I dfsOwn dfsNull [arr_t1, arr_t2, arr_x, coefset_offset] none x 0 0 s ∨
    I dfsOwn dfsNull [arr_t1, arr_t2, arr_x] none true 0 0 s

theorem Tr.f2dInitAll {E : St → Prop} :
    Tr T (I dfsVars (dfsNull ++ dfsCoef) [arr_t1, arr_t2, arr_x, arr_ab, arr_cm] none x 0 0) Res.f2dInitAll
      (fun _ => dfsAfter x) E := by
  refine (Tr.onError (E' := I dfsVars (arr_ab :: arr_cm :: dfsNull) [arr_t1, arr_t2, arr_x] none true 0 0)
    (Q := fun _ => I dfsOwn dfsNull [arr_t1, arr_t2, arr_x, coefset_offset] none x 0 0)
    (R := fun _ => I dfsOwn dfsNull [arr_t1, arr_t2, arr_x] none true 0 0) ?_ ?_).mono
    (fun _ h => h) (fun b s h => ?_) (fun _ h => h)
  · refine Tr.bind (Tr.move (by decide) (by decide) (by decide) (by decide) (notSet _ _ _ rfl) (by decide)
      rfl rfl) (fun _ => ?_)
    refine Tr.bind (Tr.move (by decide) (by decide) (by decide) (by decide) (notSet _ _ _ rfl) (by decide)
      rfl rfl) (fun _ => ?_)
    refine Tr.bind (Tr.acquire (by decide) (by decide) rfl
      (fun _ h => h.weakenAll (by decide) (by decide))) (fun _ => ?_)
    refine Tr.bind (Tr.useAll' (by decide)) (fun _ => ?_)
    refine (Tr.failIf (Tr.fourier2dInit (by decide) (by decide)
      (fun v hv => notSet _ _ v ((by decide : ∀ w ∈ f2dFields, isSet w = false) v hv)) rfl)
      (fun _ h => h.weakenAll (by decide) (by decide))).mono (fun _ h => h) (fun _ s h => ?_) (fun _ h => h)
    exact h.conv (by decide) (by decide) (fun v hv => (by decide : ∀ w ∈ dfsNull, w ∈ _) v hv)
      (fun v hv => (by decide : ∀ w ∈ [arr_t1, arr_t2, arr_x, coefset_offset], w ∈ _) v hv)
  · refine (Tr.f2dDestroyAll (by decide) (by simp)).mono (fun _ h => h) (fun _ s h => ?_) (fun _ h => h)
    exact h.conv (by decide) (by decide) (fun v hv => (by decide : ∀ w ∈ dfsNull, w ∈ _) v hv)
      (fun v hv => (by decide : ∀ w ∈ [arr_t1, arr_t2, arr_x], w ∈ _) v hv)
  · cases b
    · exact Or.inl h
    · exact Or.inr h

/-- Statement of the parser -/
macro "pstep" : tactic => `(tactic| first
  | refine Tr.bind (Tr.check rfl (fun _ h => h.weakenAll (by decide) (by decide))) (fun _ => ?_)
  | refine Tr.bind (Tr.acquire (by decide) (by decide) rfl
      (fun _ h => h.weakenAll (by decide) (by decide))) (fun _ => ?_)
  | refine Tr.bind (Tr.use' (by decide) (by decide)) (fun _ => ?_)
  | refine Tr.bind (Tr.useAll' (by decide)) (fun _ => ?_))

theorem Tr.f2dParseAll {E : St → Prop} :
    Tr T (I dfsVars (arr_ab :: arr_cm :: dfsNull ++ dfsCoef) [arr_t1, arr_t2, arr_x] none x 0 0)
      Res.f2dParseAll (fun _ => dfsAfter x) E := by
  refine Tr.bind (R := fun _ => I dfsVars (arr_ab :: arr_cm :: dfsNull ++ dfsCoef) [arr_t1, arr_t2, arr_x]
    none x 0 0) ?_ (fun _ => ?_)
  · refine (Tr.reset (by decide) (fun v hv => notSet _ _ v ((by decide : ∀ w ∈ _, isSet w = false) v hv))
      (by simp)).mono (fun _ h => h) (fun _ s h => ?_) (fun _ h => h)
    exact h.conv (by decide) (by decide)
      (fun v hv => (by decide : ∀ w ∈ arr_ab :: arr_cm :: dfsNull ++ dfsCoef, w ∈ _) v hv)
      (fun v hv => (by decide : ∀ w ∈ [arr_t1, arr_t2, arr_x], w ∈ _) v hv)
  · refine Tr.orElseReturn (R := I dfsOwn dfsNull [arr_t1, arr_t2, arr_x] none true 0 0)
      (Q := I dfsVars (dfsNull ++ dfsCoef) [arr_t1, arr_t2, arr_x, arr_ab, arr_cm] none x 0 0) ?_
      (fun s h => Or.inr h) Tr.f2dInitAll
    refine (Tr.onError (E' := I dfsVars (dfsNull ++ dfsCoef) [arr_t1, arr_t2, arr_x] none true 0 0)
      (Q := fun _ => I dfsVars (dfsNull ++ dfsCoef) [arr_t1, arr_t2, arr_x, arr_ab, arr_cm] none x 0 0)
      (R := fun _ => I dfsOwn dfsNull [arr_t1, arr_t2, arr_x] none true 0 0) ?_ ?_).mono
      (fun _ h => h) (fun b s h => h) (fun _ h => h)
    · repeat pstep
      refine (Tr.check rfl (fun s h => h.weakenAll (by decide) (by decide))).mono (fun _ h => h)
        (fun _ s h => h.weakenAll (by decide) (by decide)) (fun _ h => h)
    · refine Tr.bind (Tr.release (by decide) (notSet _ _ _ rfl)) (fun _ => ?_)
      refine (Tr.release (by decide) (notSet _ _ _ rfl)).mono (fun _ h => h) (fun _ s h => ?_)
        (fun _ h => h)
      exact h.conv (by decide) (by decide) (fun v hv => (by decide : ∀ w ∈ dfsNull, w ∈ _) v hv)
        (fun v hv => (by decide : ∀ w ∈ [arr_t1, arr_t2, arr_x], w ∈ _) v hv)

/-! ### The difference of the states -/

/-- What is owned was acquired before. -/
def Old (s : St) : Prop := ∀ k, s.own k ≠ none → k < s.t

/-- Holds after if before. -/
def Keeps {α : Type} (m : M α) : Prop :=
  ∀ e s, Old s → match m e s with
    | .ok _ s' => Old s'
    | .jump s' => Old s'
    | .fault => True

/-- The state with the block `k` owned besides -/
def lose (k : Nat) (s : St) : St := { s with own := fun j => if j = k then some .block else s.own j }

/-- A block `k` is lost; with `b` no variable can lose another one. -/
def Lost (b : Bool) (k : Nat) (s : St) : Prop :=
  k < s.t ∧ s.own k = none ∧ (b = true → s.loc coefset_offset = none)

/-- Part of a function with a lost block: it does the same. -/
def Same {α : Type} (b : Bool) (m : M α) : Prop :=
  ∀ e s k, Lost b k s → match m e s with
    | .ok a s' => Lost b k s' ∧ m e (lose k s) = .ok a (lose k s')
    | .jump s' => Lost b k s' ∧ m e (lose k s) = .jump (lose k s')
    | .fault => True

theorem Keeps.bind {α β : Type} {m : M α} {f : α → M β} (h1 : Keeps m) (h2 : ∀ a, Keeps (f a)) :
    Keeps (m >>= f) := by
  intro e s hs
  have h := h1 e s hs
  rw [bind_def]
  cases hm : m e s with
  | ok a s' => rw [hm] at h; exact h2 a e s' h
  | jump s' => rw [hm] at h; exact h
  | fault => trivial

theorem Same.bind {α β : Type} {b : Bool} {m : M α} {f : α → M β} (h1 : Same b m) (h2 : ∀ a, Same b (f a)) :
    Same b (m >>= f) := by
  intro e s k hs
  have h := h1 e s k hs
  rw [bind_def, bind_def]
  cases hm : m e s with
  | ok a s' =>
    rw [hm] at h
    dsimp only at h ⊢
    have h' := h2 a e s' k h.1
    rw [h.2]
    exact h'
  | jump s' =>
    rw [hm] at h
    dsimp only at h ⊢
    rw [h.2]
    exact ⟨h.1, rfl⟩
  | fault => trivial

theorem Keeps.pure {α : Type} (a : α) : Keeps (Pure.pure a : M α) := fun _ _ h => h

theorem Same.pure {α : Type} {b : Bool} (a : α) : Same b (Pure.pure a : M α) := fun _ _ _ h => ⟨h, rfl⟩

theorem Keeps.check : Keeps check := by
  intro e s h
  unfold Res.check
  by_cases he : e.call s.t = true
  · rw [if_pos he]; exact fun k hk => Nat.lt_succ_of_lt (h k hk)
  · rw [if_neg he]; exact fun k hk => Nat.lt_succ_of_lt (h k hk)

theorem Same.check {b : Bool} : Same b check := by
  intro e s k h
  unfold Res.check lose
  by_cases he : e.call s.t = true
  · simp only [if_pos he]
    exact ⟨⟨Nat.lt_succ_of_lt h.1, h.2⟩, trivial⟩
  · simp only [if_neg he]
    exact ⟨⟨Nat.lt_succ_of_lt h.1, h.2⟩, trivial⟩

theorem Keeps.isTrue (f : Bool) : Keeps (Res.isTrue f) := fun _ _ h => h

theorem Same.isTrue {b : Bool} (f : Bool) : Same b (Res.isTrue f) := fun _ _ _ h => ⟨h, rfl⟩

theorem Keeps.acquire (v : V) : Keeps (Res.acquire v) := by
  intro e s h
  unfold Res.acquire
  by_cases he : e.call s.t = true
  · rw [if_pos he]
    intro k hk
    show k < s.t + 1
    by_cases q : k = s.t
    · omega
    · have : s.own k ≠ none := by
        have h1 : (if k = s.t then some (kindOf v) else s.own k) ≠ none := hk
        rwa [if_neg q] at h1
      have := h k this
      omega
  · rw [if_neg he]; exact fun k hk => Nat.lt_succ_of_lt (h k hk)

theorem Same.acquire {b : Bool} {v : V} (hv : b = true → v ≠ coefset_offset) : Same b (Res.acquire v) := by
  intro e s k h
  unfold Res.acquire lose
  obtain ⟨h1, h2, h3⟩ := h
  by_cases he : e.call s.t = true
  · simp only [if_pos he]
    refine ⟨⟨Nat.lt_succ_of_lt h1, ?_, fun hb => ?_⟩, ?_⟩
    · show (if k = s.t then _ else _) = none
      rw [if_neg (by omega)]
      exact h2
    · show (if coefset_offset = v then _ else _) = none
      rw [if_neg (fun q => hv hb q.symm)]
      exact h3 hb
    · congr 2
      funext j
      by_cases q : j = k
      · rw [if_neg (by omega), if_pos q, if_pos q]
      · by_cases q' : j = s.t
        · rw [if_pos q', if_neg q, if_pos q']
        · rw [if_neg q', if_neg q, if_neg q, if_neg q']
  · simp only [if_neg he]
    refine ⟨⟨Nat.lt_succ_of_lt h1, h2, fun hb => ?_⟩, trivial⟩
    show (if coefset_offset = v then _ else _) = none
    rw [if_neg (fun q => hv hb q.symm)]
    exact h3 hb

theorem Keeps.use (v : V) : Keeps (Res.use v) := by
  intro e s h
  unfold Res.use
  cases hl : s.loc v with
  | none => trivial
  | some k =>
    by_cases q : s.own k = some (kindOf v)
    · simp only [if_pos q]; exact h
    · simp only [if_neg q]

theorem Same.use {b : Bool} (v : V) : Same b (Res.use v) := by
  intro e s k h
  unfold Res.use lose
  cases hl : s.loc v with
  | none => trivial
  | some j =>
    by_cases q : s.own j = some (kindOf v)
    · have : j ≠ k := by
        rintro rfl
        rw [h.2.1] at q
        cases q
      simp only [if_pos q, if_neg this]
      exact ⟨h, trivial⟩
    · simp only [if_neg q]

theorem Keeps.useAll (vs : List V) : Keeps (Res.useAll vs) := by
  induction vs with
  | nil => exact Keeps.pure ()
  | cons v vs ih => exact Keeps.bind (Keeps.use v) (fun _ => ih)

theorem Same.useAll {b : Bool} (vs : List V) : Same b (Res.useAll vs) := by
  induction vs with
  | nil => exact Same.pure ()
  | cons v vs ih => exact Same.bind (Same.use v) (fun _ => ih)

theorem Keeps.release (v : V) : Keeps (Res.release v) := by
  intro e s h
  unfold Res.release
  cases hl : s.loc v with
  | none => exact h
  | some j =>
    by_cases q : s.own j = some (kindOf v)
    · simp only [if_pos q]
      intro k hk
      have h1 : (if k = j then none else s.own k) ≠ none := hk
      by_cases q' : k = j
      · rw [if_pos q'] at h1; exact (h1 rfl).elim
      · rw [if_neg q'] at h1; exact h k h1
    · simp only [if_neg q]

theorem Same.release {b : Bool} (v : V) : Same b (Res.release v) := by
  intro e s k h
  unfold Res.release lose
  cases hl : s.loc v with
  | none => exact ⟨h, rfl⟩
  | some j =>
    by_cases q : s.own j = some (kindOf v)
    · have hne : j ≠ k := by
        rintro rfl
        rw [h.2.1] at q
        cases q
      simp only [if_pos q, if_neg hne]
      refine ⟨⟨h.1, ?_, h.2.2⟩, ?_⟩
      · show (if k = j then none else s.own k) = none
        rw [if_neg (fun e => hne e.symm)]
        exact h.2.1
      · congr 2
        funext i
        by_cases q' : i = k
        · rw [if_neg (by rw [q']; exact fun e => hne e.symm), if_pos q', if_pos q']
        · by_cases q2 : i = j
          · rw [if_pos q2, if_neg q', if_pos q2]
          · rw [if_neg q2, if_neg q', if_neg q', if_neg q2]
    · simp only [if_neg q]

theorem Keeps.releaseAll (vs : List V) : Keeps (Res.releaseAll vs) := by
  induction vs with
  | nil => exact Keeps.pure ()
  | cons v vs ih => exact Keeps.bind (Keeps.release v) (fun _ => ih)

theorem Same.releaseAll {b : Bool} (vs : List V) : Same b (Res.releaseAll vs) := by
  induction vs with
  | nil => exact Same.pure ()
  | cons v vs ih => exact Same.bind (Same.release v) (fun _ => ih)

theorem Keeps.reset (vs : List V) : Keeps (Res.reset vs) := fun _ _ h => h

theorem Same.reset {b : Bool} (vs : List V) : Same b (Res.reset vs) := by
  intro e s k h
  refine ⟨⟨h.1, h.2.1, fun hb => ?_⟩, rfl⟩
  show (if coefset_offset ∈ vs then none else s.loc coefset_offset) = none
  rw [h.2.2 hb]
  simp

theorem Keeps.move (u v : V) : Keeps (Res.move u v) := fun _ _ h => h

theorem Keeps.setRet (v : V) : Keeps (Res.setRet v) := fun _ _ h => h

theorem Same.setRet {b : Bool} (v : V) : Same b (Res.setRet v) := fun _ _ _ h => ⟨h, rfl⟩

theorem Same.unless {b : Bool} (v : V) : Same b (Res.releaseUnlessReturned v) := by
  intro e s k h
  have := Same.release v e s k h
  have hl : (lose k s).ret = s.ret := rfl
  unfold Res.releaseUnlessReturned
  rw [hl]
  cases hr : s.ret with
  | none => exact this
  | some j => exact ⟨h, rfl⟩

theorem Same.buildTuple {b : Bool} (vs : List V) : Same b (Res.buildTuple vs) := by
  refine Same.bind (Same.useAll vs) (fun _ => Same.bind (Same.releaseAll vs) (fun _ => ?_))
  intro e s k h
  obtain ⟨h1, h2, h3⟩ := h
  unfold lose
  by_cases he : e.tuple = true
  · simp only [if_pos he]
    refine ⟨⟨Nat.lt_succ_of_lt h1, ?_, fun hb => ?_⟩, ?_⟩
    · show (if k = s.t then _ else _) = none
      rw [if_neg (by omega)]
      exact h2
    · show (if coefset_offset = V.tuple then some s.t else _) = none
      rw [if_neg (by decide)]
      exact h3 hb
    · congr 2
      funext j
      by_cases q : j = k
      · rw [if_neg (by omega), if_pos q, if_pos q]
      · by_cases q' : j = s.t
        · rw [if_pos q', if_neg q, if_pos q']
        · rw [if_neg q', if_neg q, if_neg q, if_neg q']
  · simp only [if_neg he]
    exact ⟨⟨Nat.lt_succ_of_lt h1, h2, h3⟩, trivial⟩

theorem Keeps.onError {m g : M Unit} (h1 : Keeps m) (h2 : Keeps g) : Keeps (Res.onError m g) := by
  intro e s hs
  have h := h1 e s hs
  unfold Res.onError
  cases hm : m e s with
  | ok a s' => rw [hm] at h; exact h
  | jump s' =>
    rw [hm] at h
    have h' := h2 e s' h
    dsimp only
    cases hg : g e s' with
    | ok a s'' => rw [hg] at h'; exact h'
    | jump s'' => rw [hg] at h'; exact h'
    | fault => trivial
  | fault => trivial

theorem Same.onError {b : Bool} {m g : M Unit} (h1 : Same b m) (h2 : Same b g) : Same b (Res.onError m g) := by
  intro e s k hs
  have h := h1 e s k hs
  unfold Res.onError
  cases hm : m e s with
  | ok a s' =>
    rw [hm] at h
    dsimp only at h ⊢
    rw [h.2]
    exact ⟨h.1, rfl⟩
  | jump s' =>
    rw [hm] at h
    dsimp only at h ⊢
    have h' := h2 e s' k h.1
    rw [h.2]
    dsimp only
    cases hg : g e s' with
    | ok a s'' => rw [hg] at h'; dsimp only at h' ⊢; rw [h'.2]; exact ⟨h'.1, rfl⟩
    | jump s'' => rw [hg] at h'; dsimp only at h' ⊢; rw [h'.2]; exact ⟨h'.1, rfl⟩
    | fault => trivial
  | fault => trivial

theorem Keeps.failIf {m : M Bool} (h1 : Keeps m) : Keeps (Res.failIf m) := by
  intro e s hs
  have h := h1 e s hs
  unfold Res.failIf
  cases hm : m e s with
  | ok a s' => rw [hm] at h; cases a <;> exact h
  | jump s' => rw [hm] at h; exact h
  | fault => trivial

theorem Same.failIf {b : Bool} {m : M Bool} (h1 : Same b m) : Same b (Res.failIf m) := by
  intro e s k hs
  have h := h1 e s k hs
  unfold Res.failIf
  cases hm : m e s with
  | ok a s' => rw [hm] at h; dsimp only at h; rw [h.2]; cases a <;> exact ⟨h.1, rfl⟩
  | jump s' => rw [hm] at h; dsimp only at h; rw [h.2]; exact ⟨h.1, rfl⟩
  | fault => trivial

theorem Same.newOutputs {b : Bool} (mode : Mode) : Same b (Res.newOutputs mode) := by
  cases mode
  · exact Same.acquire (fun _ => by decide)
  · exact Same.acquire (fun _ => by decide)
  · exact Same.bind (Same.acquire (fun _ => by decide)) (fun _ => Same.acquire (fun _ => by decide))

theorem Same.scaleFactors {b : Bool} (c : Bool) : Same b (Res.scaleFactors c) := by
  cases c
  · exact Same.pure ()
  · exact Same.bind (Same.acquire (fun _ => by decide))
      (fun _ => Same.bind (Same.use _) (fun _ => Same.check))

theorem Same.acquireAll {b : Bool} {vs : List V} (h : coefset_offset ∉ vs) : Same b (Res.acquireAll vs) := by
  induction vs with
  | nil => exact Same.pure ()
  | cons v vs ih =>
    rw [List.mem_cons, not_or] at h
    exact Same.bind (Same.acquire (fun _ q => h.1 q.symm)) (fun _ => ih h.2)

theorem Keeps.acquireAll (vs : List V) : Keeps (Res.acquireAll vs) := by
  induction vs with
  | nil => exact Keeps.pure ()
  | cons v vs ih => exact Keeps.bind (Keeps.acquire v) (fun _ => ih)

theorem Same.modelDestroy {b : Bool} : Same b Res.modelDestroy :=
  Same.bind (Same.releaseAll _) (fun _ => Same.reset _)

theorem Same.modelTsDestroy {b : Bool} : Same b Res.modelTsDestroy :=
  Same.bind (Same.release _) (fun _ => Same.bind Same.modelDestroy (fun _ => Same.reset _))

theorem Same.modelInit {b : Bool} : Same b Res.modelInit :=
  Same.onError (Same.bind (Same.reset _) (fun _ => Same.acquireAll (by decide))) Same.modelDestroy

theorem Same.modelTsInit {b : Bool} : Same b Res.modelTsInit :=
  Same.onError (Same.bind (Same.reset _) (fun _ => Same.bind (Same.failIf Same.modelInit)
    (fun _ => Same.acquire (fun _ => by decide)))) Same.modelTsDestroy

theorem Same.evalMode {b : Bool} (mode : Mode) (us ws : List V) : Same b (Res.evalMode mode us ws) := by
  cases mode
  · exact Same.bind (Same.use _) (fun _ => Same.bind (Same.useAll _) (fun _ =>
      Same.bind (Same.useAll _) (fun _ => Same.setRet _)))
  · exact Same.bind (Same.use _) (fun _ => Same.bind (Same.useAll _) (fun _ =>
      Same.bind (Same.useAll _) (fun _ => Same.setRet _)))
  · exact Same.bind (Same.useAll _) (fun _ => Same.bind (Same.useAll _) (fun _ =>
      Same.bind (Same.useAll _) (fun _ => Same.buildTuple _)))

theorem Same.dfsRest {b : Bool} (mode : Mode) (scale : Bool) : Same b (Res.dfsRest mode scale) :=
  Same.bind Same.check (fun _ => Same.bind (Same.scaleFactors _) (fun _ => Same.bind (Same.useAll _)
    (fun _ => Same.bind (Same.newOutputs _) (fun _ => Same.bind (Same.failIf Same.modelTsInit)
      (fun _ => Same.evalMode _ _ _)))))

theorem Same.dfsEnd {b : Bool} : Same b Res.dfsEnd :=
  Same.bind (Same.release _) (fun _ => Same.bind (Same.release _) (fun _ => Same.bind (Same.release _)
    (fun _ => Same.bind (Same.release _) (fun _ => Same.bind (Same.unless _) (fun _ => Same.unless _)))))

theorem Same.fourier2dDestroy {b : Bool} : Same b Res.fourier2dDestroy :=
  Same.bind (Same.releaseAll _) (fun _ => Same.reset _)

theorem Keeps.fourier2dDestroy : Keeps Res.fourier2dDestroy :=
  Keeps.bind (Keeps.releaseAll _) (fun _ => Keeps.reset _)

theorem Keeps.fourier2dInit : Keeps Res.fourier2dInit :=
  Keeps.onError (Keeps.bind (Keeps.reset _) (fun _ => Keeps.acquireAll _)) Keeps.fourier2dDestroy

theorem Same.f2dCoefsetDestroy {b : Bool} : Same b Res.f2dCoefsetDestroy :=
  Same.bind (Same.release _) (fun _ => Same.bind (Same.release _) (fun _ =>
    Same.bind Same.fourier2dDestroy (fun _ => Same.reset _)))

theorem Keeps.f2dCoefsetDestroy : Keeps Res.f2dCoefsetDestroy :=
  Keeps.bind (Keeps.release _) (fun _ => Keeps.bind (Keeps.release _) (fun _ =>
    Keeps.bind Keeps.fourier2dDestroy (fun _ => Keeps.reset _)))

def NoJump (m : M Unit) : Prop := ∀ e s s', m e s = .jump s' → False

theorem NoJump.bind {m : M Unit} {f : Unit → M Unit} (h1 : NoJump m) (h2 : ∀ a, NoJump (f a)) :
    NoJump (m >>= f) := by
  intro e s s' h
  rw [bind_def] at h
  cases hm : m e s with
  | ok a t => rw [hm] at h; exact h2 a e t s' h
  | jump t => exact h1 e s t hm
  | fault => rw [hm] at h; cases h

theorem NoJump.release (v : V) : NoJump (Res.release v) := by
  intro e s s' h
  unfold Res.release at h
  cases hl : s.loc v with
  | none => rw [hl] at h; cases h
  | some k =>
    rw [hl] at h
    dsimp only at h
    split at h <;> cases h

theorem NoJump.releaseAll (vs : List V) : NoJump (Res.releaseAll vs) := by
  induction vs with
  | nil => intro e s s' h; cases h
  | cons v vs ih => exact NoJump.bind (NoJump.release v) (fun _ => ih)

theorem NoJump.reset (vs : List V) : NoJump (Res.reset vs) := by
  intro e s s' h
  cases h

theorem NoJump.f2dCoefsetDestroy : NoJump Res.f2dCoefsetDestroy :=
  NoJump.bind (NoJump.release _) (fun _ => NoJump.bind (NoJump.release _) (fun _ =>
    NoJump.bind (NoJump.bind (NoJump.releaseAll _) (fun _ => NoJump.reset _)) (fun _ => NoJump.reset _)))

theorem f2dCoefsetDestroy_null (e : Env) (s s' : St) (u : Unit) (h : f2dCoefsetDestroy e s = .ok u s') :
    s'.loc coefset_offset = none := by
  have key : ∀ {m : M Unit}, (∀ s s', (do m; reset dfsCoef : M Unit) e s = .ok u s' →
      s'.loc coefset_offset = none) := by
    intro m s s' h
    rw [bind_def] at h
    cases hm : m e s with
    | ok a t =>
      rw [hm] at h
      have : s' = { t with loc := fun w => if w ∈ dfsCoef then none else t.loc w } := by
        have h' : Out.ok () { t with loc := fun w => if w ∈ dfsCoef then none else t.loc w } = .ok u s' := h
        injection h' with _ h'
        exact h'.symm
      rw [this]
      rfl
    | jump t => rw [hm] at h; cases h
    | fault => rw [hm] at h; cases h
  have hd : f2dCoefsetDestroy =
      ((do release coefset_ab; release coefset_cm; fourier2dDestroy : M Unit) >>= fun _ => reset dfsCoef) := by
    simp only [f2dCoefsetDestroy, bind_assoc']
    rfl
  rw [hd] at h
  exact key s s' h

/-- The states of the two functions -/
def Differ (s t : St) : Prop := s = t ∨ ∃ k, Lost true k t ∧ s = lose k t

/-- The first does what the second does, with one block lost or none. -/
def Sim {α : Type} (P : St → St → Prop) (m n : M α) : Prop :=
  ∀ e s t, P s t → match n e t with
    | .ok a t' => ∃ s', m e s = .ok a s' ∧ Differ s' t' ∧ Old t'
    | .jump t' => ∃ s', m e s = .jump s' ∧ Differ s' t' ∧ Old t'
    | .fault => True

theorem Same.sim {α : Type} {m : M α} (h : Same true m) (hk : Keeps m) :
    Sim (fun s t => Differ s t ∧ Old t) m m := by
  rintro e s t ⟨h1, h2⟩
  have h3 := hk e t h2
  rcases h1 with rfl | ⟨k, h1, rfl⟩
  · cases hm : m e s with
    | ok a t' => rw [hm] at h3; exact ⟨t', rfl, Or.inl rfl, h3⟩
    | jump t' => rw [hm] at h3; exact ⟨t', rfl, Or.inl rfl, h3⟩
    | fault => trivial
  · have h4 := h e t k h1
    cases hm : m e t with
    | ok a t' => rw [hm] at h3 h4; exact ⟨lose k t', h4.2, Or.inr ⟨k, h4.1, rfl⟩, h3⟩
    | jump t' => rw [hm] at h3 h4; exact ⟨lose k t', h4.2, Or.inr ⟨k, h4.1, rfl⟩, h3⟩
    | fault => trivial

theorem Sim.bind {α β : Type} {P : St → St → Prop} {m n : M α} {f g : α → M β} (h1 : Sim P m n)
    (h2 : ∀ a, Sim (fun s t => Differ s t ∧ Old t) (f a) (g a)) : Sim P (m >>= f) (n >>= g) := by
  intro e s t hs
  have h := h1 e s t hs
  rw [bind_def, bind_def]
  cases hn : n e t with
  | ok a t' =>
    rw [hn] at h
    obtain ⟨s', q1, q2⟩ := h
    rw [q1]
    exact h2 a e s' t' q2
  | jump t' =>
    rw [hn] at h
    obtain ⟨s', q1, q2⟩ := h
    rw [q1]
    exact ⟨s', rfl, q2⟩
  | fault => trivial

/-- Both the same up to here -/
theorem Sim.bindEq {α β : Type} {m : M α} {f g : α → M β} (h1 : Keeps m)
    (h2 : ∀ a, Sim (fun s t => s = t ∧ Old t) (f a) (g a)) :
    Sim (fun s t => s = t ∧ Old t) (m >>= f) (m >>= g) := by
  rintro e s t ⟨rfl, hs⟩
  have h := h1 e s hs
  rw [bind_def, bind_def]
  cases hn : m e s with
  | ok a t' =>
    rw [hn] at h
    exact h2 a e t' t' ⟨rfl, h⟩
  | jump t' =>
    rw [hn] at h
    exact ⟨t', rfl, Or.inl rfl, h⟩
  | fault => trivial

theorem Sim.destroy : Sim (fun s t => Differ s t ∧ Old t) f2dCoefsetDestroy f2dDestroyAll := by
  rintro e s t ⟨h1, h2⟩
  unfold f2dDestroyAll
  rw [bind_def]
  cases hl : t.loc coefset_offset with
  | none =>
    have hr : release coefset_offset e t = .ok () t := by
      unfold release
      rw [hl]
    rw [hr]
    exact Same.f2dCoefsetDestroy.sim Keeps.f2dCoefsetDestroy e s t ⟨h1, h2⟩
  | some k =>
    rcases h1 with rfl | ⟨j, q, rfl⟩
    · by_cases ho : s.own k = some .block
      · have hr : release coefset_offset e s =
            .ok () { s with own := fun j => if j = k then none else s.own j } := by
          unfold release
          rw [hl]
          exact if_pos ho
        have hk := Keeps.release coefset_offset e s h2
        rw [hr] at hk ⊢
        dsimp only at hk ⊢
        have hs : s = lose k { s with own := fun j => if j = k then none else s.own j } := by
          unfold lose
          cases s
          congr 1
          funext j
          by_cases q : j = k
          · rw [if_pos q, q]; exact ho
          · rw [if_neg q]; exact (if_neg q).symm
        have hlost : Lost false k { s with own := fun j => if j = k then none else s.own j } :=
          ⟨h2 k (by rw [ho]; simp), if_pos rfl, by simp⟩
        have h3 := Same.f2dCoefsetDestroy (b := false) e _ k hlost
        rw [← hs] at h3
        have h4 := Keeps.f2dCoefsetDestroy e _ hk
        cases hm : f2dCoefsetDestroy e { s with own := fun j => if j = k then none else s.own j } with
        | ok a t' =>
          rw [hm] at h3 h4
          exact ⟨_, h3.2, Or.inr ⟨k, ⟨h3.1.1, h3.1.2.1, fun _ => f2dCoefsetDestroy_null e _ _ _ hm⟩, rfl⟩, h4⟩
        | jump t' =>
          exact (NoJump.f2dCoefsetDestroy e _ _ hm).elim
        | fault => trivial
      · have hr : release coefset_offset e s = .fault := by
          unfold release
          rw [hl]
          exact if_neg ho
        rw [hr]
        trivial
    · rw [q.2.2 rfl] at hl
      cases hl

abbrev Both (s t : St) : Prop := Differ s t ∧ Old t

theorem Sim.initAll : Sim (fun s t => s = t ∧ Old t) f2dCoefsetInit f2dInitAll := by
  rintro e s t ⟨rfl, hs⟩
  have hk : Keeps (do
      move arr_ab coefset_ab
      move arr_cm coefset_cm
      acquire coefset_offset
      useAll [coefset_cm, coefset_offset]
      failIf fourier2dInit : M Unit) :=
    Keeps.bind (Keeps.move _ _) (fun _ => Keeps.bind (Keeps.move _ _) (fun _ => Keeps.bind (Keeps.acquire _)
      (fun _ => Keeps.bind (Keeps.useAll _) (fun _ => Keeps.failIf Keeps.fourier2dInit))))
  have h := hk e s hs
  unfold f2dCoefsetInit f2dInitAll onError
  revert h
  generalize (do
      move arr_ab coefset_ab
      move arr_cm coefset_cm
      acquire coefset_offset
      useAll [coefset_cm, coefset_offset]
      failIf fourier2dInit : M Unit) e s = o
  intro h
  cases o with
  | ok a s' => exact ⟨s', rfl, Or.inl rfl, h⟩
  | jump s' =>
    have h' := Sim.destroy e s' s' ⟨Or.inl rfl, h⟩
    dsimp only
    cases hd : f2dDestroyAll e s' with
    | ok a t' =>
      rw [hd] at h'
      obtain ⟨s'', q1, q2⟩ := h'
      rw [q1]
      exact ⟨s'', rfl, q2⟩
    | jump t' =>
      rw [hd] at h'
      obtain ⟨s'', q1, q2⟩ := h'
      rw [q1]
      exact ⟨s'', rfl, q2⟩
    | fault => trivial
  | fault => trivial

theorem Sim.parseAll : Sim (fun s t => s = t ∧ Old t) f2dCoefsetParse f2dParseAll := by
  refine Sim.bindEq (Keeps.reset _) (fun _ => ?_)
  rintro e s t ⟨rfl, hs⟩
  have hk : Keeps (onError
      (do
        check; check; check; check; check; check; check; check
        acquire arr_ab
        acquire arr_cm
        use arr_ab
        check
        use arr_cm
        check
        useAll [arr_ab, arr_cm]
        check)
      (do
        release arr_ab
        release arr_cm)) := by
    refine Keeps.onError ?_ (Keeps.bind (Keeps.release _) (fun _ => Keeps.release _))
    iterate 8 refine Keeps.bind Keeps.check (fun _ => ?_)
    exact Keeps.bind (Keeps.acquire _) (fun _ => Keeps.bind (Keeps.acquire _) (fun _ =>
      Keeps.bind (Keeps.use _) (fun _ => Keeps.bind Keeps.check (fun _ => Keeps.bind (Keeps.use _)
        (fun _ => Keeps.bind Keeps.check (fun _ => Keeps.bind (Keeps.useAll _) (fun _ => Keeps.check)))))))
  have h := hk e s hs
  unfold orElseReturn
  revert h
  generalize onError
      (do
        check; check; check; check; check; check; check; check
        acquire arr_ab
        acquire arr_cm
        use arr_ab
        check
        use arr_cm
        check
        useAll [arr_ab, arr_cm]
        check)
      (do
        release arr_ab
        release arr_cm) e s = o
  intro h
  cases o with
  | ok a s' =>
    cases a
    · exact Sim.initAll e s' s' ⟨rfl, h⟩
    · exact ⟨s', rfl, Or.inl rfl, h⟩
  | jump s' => exact ⟨s', rfl, Or.inl rfl, h⟩
  | fault => trivial

theorem Sim.ignoreResult {P : St → St → Prop} {m n : M Bool} (h1 : Sim P m n) :
    Sim P (Res.ignoreResult m) (Res.ignoreResult n) := by
  intro e s t hs
  have h := h1 e s t hs
  unfold Res.ignoreResult
  cases hn : n e t with
  | ok a t' => rw [hn] at h; obtain ⟨s', q1, q2⟩ := h; rw [q1]; exact ⟨s', rfl, q2⟩
  | jump t' => rw [hn] at h; obtain ⟨s', q1, q2⟩ := h; rw [q1]; exact ⟨s', rfl, q2⟩
  | fault => trivial

theorem Keeps.optionalFlag (f : Option Bool) : Keeps (Res.optionalFlag f) := by
  cases f
  · exact Keeps.pure ()
  · exact Keeps.isTrue _

theorem Keeps.dfsStart (f : Option Bool) : Keeps (Res.dfsStart f) := by
  refine Keeps.bind Keeps.check (fun _ => Keeps.bind (Keeps.optionalFlag f) (fun _ => ?_))
  iterate 3 refine Keeps.bind Keeps.check (fun _ => ?_)
  iterate 3 refine Keeps.bind (Keeps.acquire _) (fun _ => ?_)
  refine Keeps.bind (Keeps.useAll _) (fun _ => ?_)
  iterate 3 refine Keeps.bind Keeps.check (fun _ => ?_)
  exact Keeps.check

theorem Keeps.unless (v : V) : Keeps (Res.releaseUnlessReturned v) := by
  intro e s h
  have := Keeps.release v e s h
  unfold Res.releaseUnlessReturned
  cases hr : s.ret with
  | none => exact this
  | some j => exact h

theorem Keeps.buildTuple (vs : List V) : Keeps (Res.buildTuple vs) := by
  refine Keeps.bind (Keeps.useAll vs) (fun _ => Keeps.bind (Keeps.releaseAll vs) (fun _ => ?_))
  intro e s h
  dsimp only
  by_cases he : e.tuple = true
  · rw [if_pos he]
    intro k hk
    show k < s.t + 1
    by_cases q : k = s.t
    · omega
    · have : s.own k ≠ none := by
        have h1 : (if k = s.t then some Kind.ref else s.own k) ≠ none := hk
        rwa [if_neg q] at h1
      have := h k this
      omega
  · rw [if_neg he]; exact fun k hk => Nat.lt_succ_of_lt (h k hk)

theorem Keeps.newOutputs (mode : Mode) : Keeps (Res.newOutputs mode) := by
  cases mode
  · exact Keeps.acquire _
  · exact Keeps.acquire _
  · exact Keeps.bind (Keeps.acquire _) (fun _ => Keeps.acquire _)

theorem Keeps.scaleFactors (c : Bool) : Keeps (Res.scaleFactors c) := by
  cases c
  · exact Keeps.pure ()
  · exact Keeps.bind (Keeps.acquire _) (fun _ => Keeps.bind (Keeps.use _) (fun _ => Keeps.check))

theorem Keeps.modelDestroy : Keeps Res.modelDestroy :=
  Keeps.bind (Keeps.releaseAll _) (fun _ => Keeps.reset _)

theorem Keeps.modelTsDestroy : Keeps Res.modelTsDestroy :=
  Keeps.bind (Keeps.release _) (fun _ => Keeps.bind Keeps.modelDestroy (fun _ => Keeps.reset _))

theorem Keeps.modelInit : Keeps Res.modelInit :=
  Keeps.onError (Keeps.bind (Keeps.reset _) (fun _ => Keeps.acquireAll _)) Keeps.modelDestroy

theorem Keeps.modelTsInit : Keeps Res.modelTsInit :=
  Keeps.onError (Keeps.bind (Keeps.reset _) (fun _ => Keeps.bind (Keeps.failIf Keeps.modelInit)
    (fun _ => Keeps.acquire _))) Keeps.modelTsDestroy

theorem Keeps.evalMode (mode : Mode) (us ws : List V) : Keeps (Res.evalMode mode us ws) := by
  cases mode
  · exact Keeps.bind (Keeps.use _) (fun _ => Keeps.bind (Keeps.useAll _) (fun _ =>
      Keeps.bind (Keeps.useAll _) (fun _ => Keeps.setRet _)))
  · exact Keeps.bind (Keeps.use _) (fun _ => Keeps.bind (Keeps.useAll _) (fun _ =>
      Keeps.bind (Keeps.useAll _) (fun _ => Keeps.setRet _)))
  · exact Keeps.bind (Keeps.useAll _) (fun _ => Keeps.bind (Keeps.useAll _) (fun _ =>
      Keeps.bind (Keeps.useAll _) (fun _ => Keeps.buildTuple _)))

theorem Keeps.dfsRest (mode : Mode) (scale : Bool) : Keeps (Res.dfsRest mode scale) :=
  Keeps.bind Keeps.check (fun _ => Keeps.bind (Keeps.scaleFactors _) (fun _ => Keeps.bind (Keeps.useAll _)
    (fun _ => Keeps.bind (Keeps.newOutputs _) (fun _ => Keeps.bind (Keeps.failIf Keeps.modelTsInit)
      (fun _ => Keeps.evalMode _ _ _)))))

theorem Keeps.dfsEnd : Keeps Res.dfsEnd :=
  Keeps.bind (Keeps.release _) (fun _ => Keeps.bind (Keeps.release _) (fun _ => Keeps.bind (Keeps.release _)
    (fun _ => Keeps.bind (Keeps.release _) (fun _ => Keeps.bind (Keeps.unless _) (fun _ => Keeps.unless _)))))

theorem Sim.withExit {P : St → St → Prop} {m n g h : M Unit} (h1 : Sim P m n) (h2 : Sim Both g h) :
    Sim P (Res.withExit m g) (Res.withExit n h) := by
  intro e s t hs
  have q := h1 e s t hs
  unfold Res.withExit
  cases hn : n e t with
  | ok a t' => rw [hn] at q; obtain ⟨s', q1, q2⟩ := q; rw [q1]; exact h2 e s' t' q2
  | jump t' => rw [hn] at q; obtain ⟨s', q1, q2⟩ := q; rw [q1]; exact h2 e s' t' q2
  | fault => trivial

/-- `sheval2dfs` without points differs from the function releasing `offset` by at most one block. -/
theorem sheval2dfs_sim (mode : Mode) (f : Option Bool) (scale : Bool) :
    Sim (fun s t => s = t ∧ Old t) (sheval2dfs mode f scale false) (dfsAll mode f scale) := by
  rw [sheval2dfs_parts]
  refine Sim.withExit (Sim.bindEq (Keeps.dfsStart f) (fun _ => Sim.bind (Sim.ignoreResult Sim.parseAll)
    (fun _ => (Same.dfsRest mode scale).sim (Keeps.dfsRest mode scale)))) ?_
  exact Sim.bind (Same.modelTsDestroy.sim Keeps.modelTsDestroy) (fun _ => Sim.bind Sim.destroy
    (fun _ => Same.dfsEnd.sim Keeps.dfsEnd))

/-- With points the function does the same, or the behaviour is undefined. -/
theorem sheval2dfs_points (mode : Mode) (f : Option Bool) (scale : Bool) (e : Env) (s : St) :
    sheval2dfs mode f scale true e s = .fault ∨
      sheval2dfs mode f scale true e s = sheval2dfs mode f scale false e s := by
  have hb : ∀ {α β : Type} (m : M α) (f g : α → M β), (∀ a e s, f a e s = .fault ∨ f a e s = g a e s) →
      ∀ e s, (m >>= f) e s = .fault ∨ (m >>= f) e s = (m >>= g) e s := by
    intro α β m f g h e s
    rw [bind_def, bind_def]
    cases m e s with
    | ok a s' => exact h a e s'
    | jump s' => exact Or.inr rfl
    | fault => exact Or.inl rfl
  have hu : ∀ vs e s, useAll vs e s = .fault ∨ useAll vs e s = .ok () s := by
    intro vs
    induction vs with
    | nil => intro e s; exact Or.inr rfl
    | cons v vs ih =>
      intro e s
      have : useAll (v :: vs) = (use v >>= fun _ => useAll vs) := rfl
      rw [this, bind_def]
      unfold use
      cases s.loc v with
      | none => exact Or.inl rfl
      | some k =>
        by_cases q : s.own k = some (kindOf v)
        · simp only [if_pos q]; exact ih e s
        · simp only [if_neg q]; exact Or.inl trivial
  have hi : ∀ vs (g : M Unit) e s, (useAll vs >>= fun _ => g) e s = .fault ∨
      (useAll vs >>= fun _ => g) e s = g e s := by
    intro vs g e s
    rw [bind_def]
    rcases hu vs e s with q | q
    · rw [q]; exact Or.inl rfl
    · rw [q]; exact Or.inr rfl
  have hw : ∀ (m n g : M Unit), (∀ e s, m e s = .fault ∨ m e s = n e s) →
      ∀ e s, withExit m g e s = .fault ∨ withExit m g e s = withExit n g e s := by
    intro m n g h e s
    unfold withExit
    rcases h e s with q | q
    · rw [q]; exact Or.inl rfl
    · rw [q]; exact Or.inr rfl
  revert e s
  simp only [sheval2dfs, useIf, if_true, Bool.false_eq_true, if_false, pure_bind']
  refine hw _ _ _ ?_
  repeat (first | exact hi _ _ | refine hb _ _ _ (fun _ => ?_))

/-! ### The block is lost -/

/-- Statements which change neither the exception nor, for `o`, the field `offset` -/
def Quiet (o : Bool) (m : M Unit) : Prop := ∀ e s u s', m e s = .ok u s' →
  s'.exc = s.exc ∧ (o = true → s'.loc coefset_offset = s.loc coefset_offset)

theorem Quiet.bind {o : Bool} {m : M Unit} {f : Unit → M Unit} (h1 : Quiet o m) (h2 : ∀ a, Quiet o (f a)) :
    Quiet o (m >>= f) := by
  intro e s u s' h
  rw [bind_def] at h
  cases hm : m e s with
  | ok a t =>
    rw [hm] at h
    have q1 := h1 e s a t hm
    have q2 := h2 a e t u s' h
    exact ⟨q2.1.trans q1.1, fun ho => (q2.2 ho).trans (q1.2 ho)⟩
  | jump t => rw [hm] at h; cases h
  | fault => rw [hm] at h; cases h

theorem Quiet.release {o : Bool} (v : V) : Quiet o (Res.release v) := by
  intro e s u s' h
  unfold Res.release at h
  cases hl : s.loc v with
  | none =>
    rw [hl] at h
    cases h
    exact ⟨rfl, fun _ => rfl⟩
  | some k =>
    rw [hl] at h
    dsimp only at h
    split at h
    · cases h
      exact ⟨rfl, fun _ => rfl⟩
    · cases h

theorem Quiet.releaseAll {o : Bool} (vs : List V) : Quiet o (Res.releaseAll vs) := by
  induction vs with
  | nil => intro e s u s' h; cases h; exact ⟨rfl, fun _ => rfl⟩
  | cons v vs ih => exact Quiet.bind (Quiet.release v) (fun _ => ih)

theorem Quiet.reset {o : Bool} {vs : List V} (h : o = true → coefset_offset ∉ vs) : Quiet o (Res.reset vs) := by
  intro e s u s' hs
  cases hs
  refine ⟨rfl, fun ho => ?_⟩
  show (if coefset_offset ∈ vs then none else s.loc coefset_offset) = _
  rw [if_neg (h ho)]

theorem Quiet.unless {o : Bool} (v : V) : Quiet o (Res.releaseUnlessReturned v) := by
  intro e s u s' h
  unfold Res.releaseUnlessReturned at h
  cases hr : s.ret with
  | none => rw [hr] at h; exact Quiet.release v e s u s' h
  | some k => rw [hr] at h; cases h; exact ⟨rfl, fun _ => rfl⟩

theorem Quiet.modelTsDestroy : Quiet true Res.modelTsDestroy :=
  Quiet.bind (Quiet.release _) (fun _ => Quiet.bind (Quiet.bind (Quiet.releaseAll _)
    (fun _ => Quiet.reset (fun _ => by decide))) (fun _ => Quiet.reset (fun _ => by decide)))

theorem Quiet.f2dCoefsetDestroy : Quiet false Res.f2dCoefsetDestroy :=
  Quiet.bind (Quiet.release _) (fun _ => Quiet.bind (Quiet.release _) (fun _ =>
    Quiet.bind (Quiet.bind (Quiet.releaseAll _) (fun _ => Quiet.reset (by simp)))
      (fun _ => Quiet.reset (by simp))))

theorem Quiet.dfsEnd : Quiet false Res.dfsEnd :=
  Quiet.bind (Quiet.release _) (fun _ => Quiet.bind (Quiet.release _) (fun _ => Quiet.bind (Quiet.release _)
    (fun _ => Quiet.bind (Quiet.release _) (fun _ => Quiet.bind (Quiet.unless _) (fun _ => Quiet.unless _)))))

theorem Quiet.f2dDestroyAll : Quiet false Res.f2dDestroyAll :=
  Quiet.bind (Quiet.release _) (fun _ => Quiet.f2dCoefsetDestroy)

/-- The field set, or lost already -/
def Loses (s t : St) : Prop := (s = t ∧ t.loc coefset_offset ≠ none) ∨ ∃ k, Lost true k t ∧ s = lose k t

theorem lostDestroy {e : Env} {s t t' : St} {u : Unit} (h1 : Loses s t) (h2 : Old t)
    (h : f2dDestroyAll e t = .ok u t') :
    ∃ k, Lost true k t' ∧ f2dCoefsetDestroy e s = .ok u (lose k t') := by
  unfold f2dDestroyAll at h
  rw [bind_def] at h
  rcases h1 with ⟨rfl, h1⟩ | ⟨k, h1, rfl⟩
  · cases hl : s.loc coefset_offset with
    | none => exact (h1 hl).elim
    | some k =>
      by_cases ho : s.own k = some .block
      · have hr : release coefset_offset e s =
            .ok () { s with own := fun j => if j = k then none else s.own j } := by
          unfold release
          rw [hl]
          exact if_pos ho
        rw [hr] at h
        dsimp only at h
        have hs : s = lose k { s with own := fun j => if j = k then none else s.own j } := by
          unfold lose
          cases s
          congr 1
          funext j
          by_cases q : j = k
          · rw [if_pos q, q]; exact ho
          · rw [if_neg q]; exact (if_neg q).symm
        have hlost : Lost false k { s with own := fun j => if j = k then none else s.own j } :=
          ⟨h2 k (by rw [ho]; simp), if_pos rfl, by simp⟩
        have h3 := Same.f2dCoefsetDestroy (b := false) e _ k hlost
        rw [← hs, h] at h3
        exact ⟨k, ⟨h3.1.1, h3.1.2.1, fun _ => f2dCoefsetDestroy_null e _ _ _ h⟩, h3.2⟩
      · have hr : release coefset_offset e s = .fault := by
          unfold release
          rw [hl]
          exact if_neg ho
        rw [hr] at h
        cases h
  · have hr : release coefset_offset e t = .ok () t := by
      unfold release
      rw [h1.2.2 rfl]
    rw [hr] at h
    have h3 := Same.f2dCoefsetDestroy (b := true) e t k h1
    dsimp only at h
    rw [h] at h3
    exact ⟨k, h3.1, h3.2⟩

theorem lostExit {e : Env} {s t t' : St} {u : Unit} (h1 : Loses s t) (h2 : Old t)
    (h : (do modelTsDestroy; f2dDestroyAll; dfsEnd : M Unit) e t = .ok u t') :
    (∃ k, Lost true k t' ∧
      (do modelTsDestroy; f2dCoefsetDestroy; dfsEnd : M Unit) e s = .ok u (lose k t')) ∧ t'.exc = t.exc := by
  rw [bind_def] at h
  cases hm : modelTsDestroy e t with
  | fault => rw [hm] at h; cases h
  | jump t1 => rw [hm] at h; cases h
  | ok a t1 =>
    rw [hm] at h
    dsimp only at h
    have ho := Keeps.modelTsDestroy e t h2
    rw [hm] at ho
    have hq := Quiet.modelTsDestroy e t a t1 hm
    obtain ⟨s1, hs1, hl1⟩ : ∃ s1, modelTsDestroy e s = .ok a s1 ∧ Loses s1 t1 := by
      rcases h1 with ⟨rfl, h1⟩ | ⟨k, h1, rfl⟩
      · exact ⟨t1, hm, Or.inl ⟨rfl, by rw [hq.2 rfl]; exact h1⟩⟩
      · have := Same.modelTsDestroy (b := true) e t k h1
        rw [hm] at this
        exact ⟨_, this.2, Or.inr ⟨k, this.1, rfl⟩⟩
    rw [bind_def] at h
    cases hd : f2dDestroyAll e t1 with
    | fault => rw [hd] at h; cases h
    | jump t2 => rw [hd] at h; cases h
    | ok a2 t2 =>
      rw [hd] at h
      dsimp only at h
      obtain ⟨k, hk, hs2⟩ := lostDestroy hl1 ho hd
      have he := Same.dfsEnd (b := true) e t2 k hk
      rw [h] at he
      refine ⟨⟨k, he.1, ?_⟩, ?_⟩
      · rw [bind_def, hs1]
        dsimp only
        rw [bind_def, hs2]
        exact he.2
      · rw [(Quiet.dfsEnd e t2 u t' h).1, (Quiet.f2dDestroyAll e t1 a2 t2 hd).1, hq.1]

/-- If the body of the function leaves the field `offset` set whenever no exception is set, and jumps with
an exception only, then without exception a block is lost. -/
theorem sheval2dfs_lost (mode : Mode) (f : Option Bool) (scale : Bool) {e : Env} {t : St} {u : Unit}
    (hb : match (do dfsStart f; ignoreResult f2dParseAll; dfsRest mode scale : M Unit) e St.init with
      | .ok _ t' => t'.exc = false → t'.loc coefset_offset ≠ none
      | .jump t' => t'.exc = true
      | .fault => True)
    (h : dfsAll mode f scale e St.init = .ok u t) (hx : t.exc = false) :
    ∃ k, Lost true k t ∧ sheval2dfs mode f scale false e St.init = .ok u (lose k t) := by
  rw [sheval2dfs_parts]
  have hs := Sim.bindEq (Keeps.dfsStart f) (fun _ => Sim.bind (Sim.ignoreResult Sim.parseAll)
    (fun _ => (Same.dfsRest mode scale).sim (Keeps.dfsRest mode scale))) e St.init St.init
    ⟨rfl, fun k hk => (hk rfl).elim⟩
  unfold dfsAll withExit at h
  unfold withExit
  revert hb hs h
  cases hm : (do dfsStart f; ignoreResult f2dParseAll; dfsRest mode scale : M Unit) e St.init with
  | fault => intro hb h hs; cases h
  | jump t' =>
    intro hb h hs
    dsimp only at h hb
    have : t.exc = t'.exc := (Quiet.bind (o := false) (fun e s u s' q =>
      ⟨(Quiet.modelTsDestroy e s u s' q).1, by simp⟩) (fun _ => Quiet.bind Quiet.f2dDestroyAll
      (fun _ => Quiet.dfsEnd)) e t' u t h).1
    rw [hx, hb] at this
    cases this
  | ok a t' =>
    intro hb h hs
    dsimp only at h hb hs
    obtain ⟨s', q1, q2, q3⟩ := hs
    rw [q1]
    dsimp only
    have : t.exc = t'.exc := (Quiet.bind (o := false) (fun e s u s' q =>
      ⟨(Quiet.modelTsDestroy e s u s' q).1, by simp⟩) (fun _ => Quiet.bind Quiet.f2dDestroyAll
      (fun _ => Quiet.dfsEnd)) e t' u t h).1
    refine (lostExit ?_ q3 h).1
    rcases q2 with rfl | q2
    · exact Or.inl ⟨rfl, hb (this.symm.trans hx)⟩
    · exact Or.inr q2

end Verif.Res
