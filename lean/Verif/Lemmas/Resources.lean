import Verif.Model.Resources

/-!
# Reasoning about acquired resources

`I A Z N r x lo c`: what is owned is exactly what the variables in `A` (and the coefficient sets `lo .. c-1`)
point to, each owned thing by one of them; the variables in `Z` are null, those in `N` are not; `r` says
which variable is returned, `x` whether an exception is set.
-/

namespace Verif.Res

/-- Fields of the coefficient sets `lo .. c-1` -/
def InSets (lo c : Nat) (v : V) : Prop := ∃ j f, lo ≤ j ∧ j < c ∧ v = .coefsets j f

def Mem (A : List V) (lo c : Nat) (v : V) : Prop := v ∈ A ∨ InSets lo c v

structure I (A Z N : List V) (r : Option V) (x : Bool) (lo c : Nat) (s : St) : Prop where
  owns : ∀ v k, Mem A lo c v → s.loc v = some k → s.own k = some (kindOf v)
  inj : ∀ v w k, Mem A lo c v → Mem A lo c w → s.loc v = some k → s.loc w = some k → v = w
  only : ∀ k, s.own k ≠ none → ∃ v, Mem A lo c v ∧ s.loc v = some k
  lt : ∀ k, s.own k ≠ none → k < s.t
  null : ∀ v ∈ Z, s.loc v = none
  nonnull : ∀ v ∈ N, s.loc v ≠ none
  sets : ∀ v, InSets lo c v → s.loc v ≠ none
  ret : s.ret = r.bind s.loc
  exc : s.exc = x
  nc : s.ncoefset = c

/-- Triple: precondition, part of a function, condition where it goes on, condition where it jumps; no
undefined behaviour.  With `T` there is memory for the tuple. -/
def Tr {α : Type} (T : Bool) (P : St → Prop) (m : M α) (Q : α → St → Prop) (E : St → Prop) : Prop :=
  ∀ e : Env, (T = true → e.tuple = true) → ∀ s, P s → match m e s with
    | .ok a s' => Q a s'
    | .jump s' => E s'
    | .fault => False

variable {T : Bool}

theorem bind_def {α β : Type} (m : M α) (f : α → M β) (e : Env) (s : St) :
    (m >>= f) e s = match m e s with
      | .ok a s' => f a e s'
      | .jump s' => .jump s'
      | .fault => .fault := rfl

theorem pure_def {α : Type} (a : α) (e : Env) (s : St) : (pure a : M α) e s = .ok a s := rfl

theorem Tr.bind {α β : Type} {P : St → Prop} {m : M α} {f : α → M β} {R : α → St → Prop}
    {Q : β → St → Prop} {E : St → Prop} (h1 : Tr T P m R E) (h2 : ∀ a, Tr T (R a) (f a) Q E) :
    Tr T P (m >>= f) Q E := by
  intro e ht s hs
  have := h1 e ht s hs
  rw [bind_def]
  cases h : m e s with
  | ok a s' => rw [h] at this; exact h2 a e ht s' this
  | jump s' => rw [h] at this; exact this
  | fault => rw [h] at this; exact this

theorem Tr.mono {α : Type} {P P' : St → Prop} {m : M α} {Q Q' : α → St → Prop} {E E' : St → Prop}
    (h : Tr T P m Q E) (hP : ∀ s, P' s → P s) (hQ : ∀ a s, Q a s → Q' a s) (hE : ∀ s, E s → E' s) :
    Tr T P' m Q' E' := by
  intro e ht s hs
  have := h e ht s (hP s hs)
  cases hm : m e s with
  | ok a s' => rw [hm] at this; exact hQ a s' this
  | jump s' => rw [hm] at this; exact hE s' this
  | fault => rw [hm] at this; exact this

theorem Tr.pure {α : Type} {P : St → Prop} {a : α} {Q : α → St → Prop} {E : St → Prop}
    (h : ∀ s, P s → Q a s) : Tr T P (Pure.pure a : M α) Q E := fun _ _ s hs => h s hs

theorem Tr.goto {P : St → Prop} {Q : Unit → St → Prop} {E : St → Prop}
    (h : ∀ s, P s → E s) : Tr T P goto Q E := fun _ _ s hs => h s hs

section
variable {A Z N : List V} {r : Option V} {x : Bool} {lo c : Nat}

theorem I.weaken {Z' N' : List V} {s : St} (h : I A Z N r x lo c s) (hZ : Z' ⊆ Z) (hN : N' ⊆ N) :
    I A Z' N' r x lo c s :=
  { h with null := fun v hv => h.null v (hZ hv), nonnull := fun v hv => h.nonnull v (hN hv) }

/-- The list of variables counts only by what is not null. -/
theorem I.vars {A' : List V} {s : St} (h : I A Z N r x lo c s) (hA : A' ⊆ A)
    (hZ : ∀ v ∈ A, v ∈ A' ∨ v ∈ Z) : I A' Z N r x lo c s where
  owns := fun v k hv => h.owns v k (hv.imp (fun q => hA q) id)
  inj := fun v w k hv hw => h.inj v w k (hv.imp (fun q => hA q) id) (hw.imp (fun q => hA q) id)
  only := fun k hk => by
    obtain ⟨v, hv, e⟩ := h.only k hk
    rcases hv with hv | hv
    · rcases hZ v hv with q | q
      · exact ⟨v, Or.inl q, e⟩
      · rw [h.null v q] at e; cases e
    · exact ⟨v, Or.inr hv, e⟩
  lt := h.lt
  null := h.null
  nonnull := h.nonnull
  sets := h.sets
  ret := h.ret
  exc := h.exc
  nc := h.nc

/-- Null variables may be added. -/
theorem I.addVars {A' : List V} {s : St} (h : I A Z N r x lo c s) (hA : A ⊆ A')
    (hZ : ∀ v ∈ A', v ∈ A ∨ v ∈ Z) : I A' Z N r x lo c s := by
  have key : ∀ v k, Mem A' lo c v → s.loc v = some k → Mem A lo c v := by
    intro v k hv e
    rcases hv with hv | hv
    · rcases hZ v hv with q | q
      · exact Or.inl q
      · rw [h.null v q] at e; cases e
    · exact Or.inr hv
  exact
    { owns := fun v k hv e => h.owns v k (key v k hv e) e
      inj := fun v w k hv hw e1 e2 => h.inj v w k (key v k hv e1) (key w k hw e2) e1 e2
      only := fun k hk => by
        obtain ⟨v, hv, e⟩ := h.only k hk
        exact ⟨v, hv.imp (fun q => hA q) id, e⟩
      lt := h.lt
      null := h.null
      nonnull := h.nonnull
      sets := h.sets
      ret := h.ret
      exc := h.exc
      nc := h.nc }

theorem Tr.acquire {v : V} {E : St → Prop} (hA : v ∈ A) (hZ : v ∈ Z) (hr : r = none)
    (hE : ∀ s, I A Z N none true lo c s → E s) :
    Tr T (I A Z N r x lo c) (acquire v)
      (fun _ => I A (Z.filter (· ≠ v)) (v :: N) none x lo c) E := by
  subst hr
  intro e ht s h
  have hv : s.loc v = none := h.null v hZ
  have hvs : ¬ InSets lo c v := fun q => h.sets v q hv
  unfold Res.acquire
  by_cases he : e.call s.t = true
  · rw [if_pos he]
    refine ⟨?_, ?_, ?_, ?_, ?_, ?_, ?_, ?_, h.exc, h.nc⟩
    · intro w k hw hk
      dsimp only at hk ⊢
      by_cases hwv : w = v
      · subst hwv
        rw [if_pos rfl] at hk
        cases hk
        rw [if_pos rfl]
      · rw [if_neg hwv] at hk
        have := h.owns w k hw hk
        have hlt := h.lt k (by rw [this]; simp)
        rw [if_neg (by omega)]
        exact this
    · intro w u k hw hu hk1 hk2
      dsimp only at hk1 hk2
      by_cases hwv : w = v <;> by_cases huv : u = v
      · rw [hwv, huv]
      · subst hwv
        rw [if_pos rfl] at hk1
        rw [if_neg huv] at hk2
        cases hk1
        have := h.owns u _ hu hk2
        have hlt := h.lt s.t (by rw [this]; simp)
        omega
      · subst huv
        rw [if_pos rfl] at hk2
        rw [if_neg hwv] at hk1
        cases hk2
        have := h.owns w _ hw hk1
        have hlt := h.lt s.t (by rw [this]; simp)
        omega
      · rw [if_neg hwv] at hk1
        rw [if_neg huv] at hk2
        exact h.inj w u k hw hu hk1 hk2
    · intro k hk
      dsimp only at hk ⊢
      by_cases hkt : k = s.t
      · exact ⟨v, Or.inl hA, by rw [if_pos rfl, hkt]⟩
      · rw [if_neg hkt] at hk
        obtain ⟨w, hw, hwk⟩ := h.only k hk
        refine ⟨w, hw, ?_⟩
        rw [if_neg]
        · exact hwk
        · rintro rfl
          rw [hv] at hwk; cases hwk
    · intro k hk
      dsimp only at hk ⊢
      by_cases hkt : k = s.t
      · omega
      · rw [if_neg hkt] at hk
        have := h.lt k hk
        omega
    · intro w hw
      simp only [List.mem_filter, decide_eq_true_eq] at hw
      dsimp only
      rw [if_neg hw.2]
      exact h.null w hw.1
    · intro w hw
      dsimp only
      by_cases hwv : w = v
      · rw [if_pos hwv]; simp
      · rw [if_neg hwv]
        rcases List.mem_cons.1 hw with q | q
        · exact absurd q hwv
        · exact h.nonnull w q
    · intro w hw
      dsimp only
      rw [if_neg (by rintro rfl; exact hvs hw)]
      exact h.sets w hw
    · exact h.ret
  · rw [if_neg he]
    refine hE _ ?_
    have hl : (fun w => if w = v then none else s.loc w) = s.loc := by
      funext w
      by_cases hwv : w = v
      · subst hwv; simp [hv]
      · simp [hwv]
    rw [hl]
    exact { h with
      lt := fun k hk => by
        have := h.lt k hk
        dsimp only
        omega
      exc := rfl }

theorem Tr.check {E : St → Prop} (hr : r = none) (hE : ∀ s, I A Z N none true lo c s → E s) :
    Tr T (I A Z N r x lo c) check (fun _ => I A Z N none x lo c) E := by
  subst hr
  intro e ht s h
  unfold Res.check
  by_cases he : e.call s.t = true
  · rw [if_pos he]
    exact { h with lt := fun k hk => by have := h.lt k hk; dsimp only; omega }
  · rw [if_neg he]
    exact hE _ { h with lt := fun k hk => by have := h.lt k hk; dsimp only; omega
                        exc := rfl }

theorem Tr.isTrue {E : St → Prop} (b : Bool) :
    Tr T (I A Z N r x lo c) (isTrue b) (fun _ => I A Z N r (x || !b) lo c) E := by
  intro e ht s h
  exact { h with exc := by rw [← h.exc] }

theorem Tr.use {v : V} {E : St → Prop} (hA : Mem A lo c v) (hN : v ∈ N ∨ InSets lo c v) :
    Tr T (I A Z N r x lo c) (use v) (fun _ => I A Z N r x lo c) E := by
  intro e ht s h
  unfold Res.use
  cases hv : s.loc v with
  | none =>
    rcases hN with q | q
    · exact (h.nonnull v q hv).elim
    · exact (h.sets v q hv).elim
  | some k =>
    dsimp only
    rw [if_pos (h.owns v k hA hv)]
    exact h

theorem Tr.useAll {vs : List V} {E : St → Prop}
    (hv : ∀ v ∈ vs, Mem A lo c v ∧ (v ∈ N ∨ InSets lo c v)) :
    Tr T (I A Z N r x lo c) (useAll vs) (fun _ => I A Z N r x lo c) E := by
  induction vs with
  | nil => exact Tr.pure (fun _ h => h)
  | cons v vs ih =>
    have := hv v (List.mem_cons_self ..)
    exact Tr.bind (Tr.use this.1 this.2) (fun _ => ih (fun w hw => hv w (List.mem_cons_of_mem _ hw)))

/-- Use of plain variables -/
theorem Tr.useAll' {vs : List V} {E : St → Prop} (hv : ∀ v ∈ vs, v ∈ A ∧ v ∈ N) :
    Tr T (I A Z N r x lo c) (Res.useAll vs) (fun _ => I A Z N r x lo c) E :=
  Tr.useAll (fun v h => ⟨Or.inl (hv v h).1, Or.inl (hv v h).2⟩)

theorem Tr.use' {v : V} {E : St → Prop} (hA : v ∈ A) (hN : v ∈ N) :
    Tr T (I A Z N r x lo c) (Res.use v) (fun _ => I A Z N r x lo c) E :=
  Tr.use (Or.inl hA) (Or.inl hN)

theorem Tr.release {v : V} {E : St → Prop} (hA : v ∈ A) (hs : ¬ InSets lo c v) :
    Tr T (I A Z N r x lo c) (release v) (fun _ => I (A.filter (· ≠ v)) Z N r x lo c) E := by
  intro e ht s h
  have sub : ∀ w, Mem (A.filter (· ≠ v)) lo c w → Mem A lo c w ∧ w ≠ v := by
    intro w hw
    rcases hw with hw | hw
    · simp only [List.mem_filter, decide_eq_true_eq] at hw
      exact ⟨Or.inl hw.1, hw.2⟩
    · exact ⟨Or.inr hw, by rintro rfl; exact hs hw⟩
  have sup : ∀ w, Mem A lo c w → w ≠ v → Mem (A.filter (· ≠ v)) lo c w := by
    intro w hw hne
    rcases hw with hw | hw
    · exact Or.inl (List.mem_filter.2 ⟨hw, by simpa using hne⟩)
    · exact Or.inr hw
  unfold Res.release
  cases hv : s.loc v with
  | none =>
    dsimp only
    refine { h with
      owns := fun w k hw => h.owns w k (sub w hw).1
      inj := fun w u k hw hu => h.inj w u k (sub w hw).1 (sub u hu).1
      only := fun k hk => ?_ }
    obtain ⟨w, hw, e⟩ := h.only k hk
    refine ⟨w, sup w hw ?_, e⟩
    rintro rfl
    rw [hv] at e; cases e
  | some k =>
    dsimp only
    rw [if_pos (h.owns v k (Or.inl hA) hv)]
    refine { h with
      owns := fun w j hw hj => ?_
      inj := fun w u k hw hu => h.inj w u k (sub w hw).1 (sub u hu).1
      only := fun j hj => ?_
      lt := fun j hj => ?_ }
    · dsimp only
      rw [if_neg]
      · exact h.owns w j (sub w hw).1 hj
      · rintro rfl
        exact (sub w hw).2 (h.inj w v j (sub w hw).1 (Or.inl hA) hj hv)
    · dsimp only at hj
      by_cases hjk : j = k
      · rw [if_pos hjk] at hj; exact (hj rfl).elim
      · rw [if_neg hjk] at hj
        obtain ⟨w, hw, e⟩ := h.only j hj
        refine ⟨w, sup w hw ?_, e⟩
        rintro rfl
        rw [hv] at e
        exact hjk (Option.some.inj e).symm
    · dsimp only at hj
      by_cases hjk : j = k
      · rw [if_pos hjk] at hj; exact (hj rfl).elim
      · rw [if_neg hjk] at hj
        exact h.lt j hj

theorem Tr.releaseAll {vs : List V} {E : St → Prop} (hA : ∀ v ∈ vs, v ∈ A) (hd : vs.Nodup)
    (hs : ∀ v ∈ vs, ¬ InSets lo c v) :
    Tr T (I A Z N r x lo c) (releaseAll vs) (fun _ => I (A.filter (· ∉ vs)) Z N r x lo c) E := by
  induction vs generalizing A with
  | nil =>
    refine Tr.pure (fun _ h => ?_)
    have : A.filter (· ∉ ([] : List V)) = A := by simp
    rw [this]; exact h
  | cons v vs ih =>
    rw [List.nodup_cons] at hd
    refine Tr.bind (Tr.release (hA v (List.mem_cons_self ..)) (hs v (List.mem_cons_self ..)))
      (fun _ => ?_)
    have := ih (A := A.filter (· ≠ v)) (fun w hw => by
      refine List.mem_filter.2 ⟨hA w (List.mem_cons_of_mem _ hw), ?_⟩
      simp only [decide_eq_true_eq]
      rintro rfl
      exact hd.1 hw) hd.2 (fun w hw => hs w (List.mem_cons_of_mem _ hw))
    refine this.mono (fun _ h => h) (fun _ s h => ?_) (fun _ h => h)
    have e : List.filter (fun w => decide (w ∉ vs)) (List.filter (fun w => decide (w ≠ v)) A) =
        List.filter (fun w => decide (w ∉ v :: vs)) A := by
      rw [List.filter_filter]
      congr 1
      funext w
      simp only [List.mem_cons, not_or, ne_eq, ← Bool.decide_and]
      by_cases h1 : w = v <;> by_cases h2 : w ∈ vs <;> simp [h1, h2]
    rw [e] at h
    exact h

theorem Tr.reset {vs : List V} {E : St → Prop} (hv : ∀ v ∈ vs, v ∈ Z ∨ v ∉ A)
    (hs : ∀ v ∈ vs, ¬ InSets lo c v) (hr : ∀ w, r = some w → w ∉ vs) :
    Tr T (I A Z N r x lo c) (reset vs)
      (fun _ => I (vs ++ A) (vs ++ Z) (N.filter (· ∉ vs)) r x lo c) E := by
  intro e ht s h
  unfold Res.reset
  have key : ∀ w k, Mem (vs ++ A) lo c w → (if w ∈ vs then none else s.loc w) = some k →
      Mem A lo c w ∧ s.loc w = some k ∧ w ∉ vs := by
    intro w k hw hk
    by_cases hwv : w ∈ vs
    · rw [if_pos hwv] at hk; cases hk
    · rw [if_neg hwv] at hk
      refine ⟨?_, hk, hwv⟩
      rcases hw with hw | hw
      · rcases List.mem_append.1 hw with q | q
        · exact absurd q hwv
        · exact Or.inl q
      · exact Or.inr hw
  refine ⟨?_, ?_, ?_, h.lt, ?_, ?_, ?_, ?_, h.exc, h.nc⟩
  · intro w k hw hk
    obtain ⟨h1, h2, _⟩ := key w k hw hk
    exact h.owns w k h1 h2
  · intro w u k hw hu hk1 hk2
    obtain ⟨h1, h2, _⟩ := key w k hw hk1
    obtain ⟨h3, h4, _⟩ := key u k hu hk2
    exact h.inj w u k h1 h3 h2 h4
  · intro k hk
    obtain ⟨w, hw, e⟩ := h.only k hk
    have hwv : w ∉ vs := by
      intro q
      rcases hv w q with q' | q'
      · rw [h.null w q'] at e; cases e
      · rcases hw with hw | hw
        · exact q' hw
        · exact hs w q hw
    refine ⟨w, hw.imp (fun q => List.mem_append.2 (Or.inr q)) id, ?_⟩
    dsimp only
    rw [if_neg hwv]
    exact e
  · intro w hw
    dsimp only
    by_cases hwv : w ∈ vs
    · rw [if_pos hwv]
    · rw [if_neg hwv]
      rcases List.mem_append.1 hw with q | q
      · exact absurd q hwv
      · exact h.null w q
  · intro w hw
    simp only [List.mem_filter, decide_eq_true_eq] at hw
    dsimp only
    rw [if_neg hw.2]
    exact h.nonnull w hw.1
  · intro w hw
    dsimp only
    rw [if_neg (fun q => hs w q hw)]
    exact h.sets w hw
  · dsimp only
    rw [h.ret]
    cases hrr : r with
    | none => rfl
    | some w =>
      simp only [Option.bind_some]
      rw [if_neg (hr w hrr)]

theorem Tr.move {u v : V} {E : St → Prop} (hu : u ∈ A) (hv : v ∈ A) (hz : v ∈ Z) (hn : u ∈ N)
    (hs : ¬ InSets lo c u) (hne : u ≠ v) (hk : kindOf u = kindOf v) (hr : r = none) :
    Tr T (I A Z N r x lo c) (move u v)
      (fun _ => I A (u :: Z.filter (· ≠ v)) (v :: N.filter (· ≠ u)) none x lo c) E := by
  subst hr
  intro e ht s h
  have hvn : s.loc v = none := h.null v hz
  have hvs : ¬ InSets lo c v := fun q => h.sets v q hvn
  unfold Res.move
  -- the variable which had the value before
  have key : ∀ w k, Mem A lo c w → (if w = v then s.loc u else if w = u then none else s.loc w) = some k →
      (w = v ∧ s.loc u = some k) ∨ (w ≠ v ∧ w ≠ u ∧ s.loc w = some k) := by
    intro w k hw hk
    by_cases h1 : w = v
    · rw [if_pos h1] at hk
      exact Or.inl ⟨h1, hk⟩
    · rw [if_neg h1] at hk
      by_cases h2 : w = u
      · rw [if_pos h2] at hk; cases hk
      · rw [if_neg h2] at hk
        exact Or.inr ⟨h1, h2, hk⟩
  refine ⟨?_, ?_, ?_, h.lt, ?_, ?_, ?_, h.ret, h.exc, h.nc⟩
  · intro w k hw hwk
    rcases key w k hw hwk with ⟨h1, h2⟩ | ⟨h1, h2, h3⟩
    · rw [h1, ← hk]
      exact h.owns u k (Or.inl hu) h2
    · exact h.owns w k hw h3
  · intro w w' k hw hw' hk1 hk2
    rcases key w k hw hk1 with ⟨h1, h2⟩ | ⟨h1, h2, h3⟩ <;>
      rcases key w' k hw' hk2 with ⟨g1, g2⟩ | ⟨g1, g2, g3⟩
    · rw [h1, g1]
    · exact (g2 (h.inj w' u k hw' (Or.inl hu) g3 h2)).elim
    · exact (h2 (h.inj w u k hw (Or.inl hu) h3 g2)).elim
    · exact h.inj w w' k hw hw' h3 g3
  · intro k hk0
    obtain ⟨w, hw, e⟩ := h.only k hk0
    by_cases h1 : w = u
    · exact ⟨v, Or.inl hv, by dsimp only; rw [if_pos rfl, ← h1, e]⟩
    · refine ⟨w, hw, ?_⟩
      dsimp only
      rw [if_neg, if_neg h1, e]
      rintro rfl
      rw [hvn] at e; cases e
  · intro w hw
    dsimp only
    rcases List.mem_cons.1 hw with q | q
    · rw [q, if_neg hne, if_pos rfl]
    · simp only [List.mem_filter, decide_eq_true_eq] at q
      rw [if_neg q.2]
      by_cases h2 : w = u
      · rw [if_pos h2]
      · rw [if_neg h2]; exact h.null w q.1
  · intro w hw
    dsimp only
    rcases List.mem_cons.1 hw with q | q
    · rw [if_pos q]; exact h.nonnull u hn
    · simp only [List.mem_filter, decide_eq_true_eq] at q
      by_cases h1 : w = v
      · rw [if_pos h1]; exact h.nonnull u hn
      · rw [if_neg h1, if_neg q.2]; exact h.nonnull w q.1
  · intro w hw
    dsimp only
    rw [if_neg (by rintro rfl; exact hvs hw), if_neg (by rintro rfl; exact hs hw)]
    exact h.sets w hw

theorem Tr.setRet {v : V} {E : St → Prop} :
    Tr T (I A Z N r x lo c) (setRet v) (fun _ => I A Z N (some v) x lo c) E := by
  intro e ht s h
  exact { h with ret := rfl }

theorem Tr.unlessNull {v : V} {E : St → Prop} (hA : v ∈ A) (hs : ¬ InSets lo c v) (hr : r = none) :
    Tr T (I A Z N r x lo c) (releaseUnlessReturned v)
      (fun _ => I (A.filter (· ≠ v)) Z N none x lo c) E := by
  subst hr
  intro e ht s h
  have hr : s.ret = none := h.ret
  unfold Res.releaseUnlessReturned
  rw [hr]
  exact Tr.release (E := E) hA hs e ht s h

theorem Tr.unlessSome {v w : V} {E : St → Prop} (hr : r = some w) (hw : w ∈ N) :
    Tr T (I A Z N r x lo c) (releaseUnlessReturned v) (fun _ => I A Z N r x lo c) E := by
  subst hr
  intro e ht s h
  have hr : s.ret = s.loc w := h.ret
  unfold Res.releaseUnlessReturned
  cases hl : s.loc w with
  | none => exact (h.nonnull w hw hl).elim
  | some k =>
    rw [hr, hl]
    exact h

/-- `Py_BuildValue` which finds memory for the tuple -/
theorem Tr.buildTuple {vs : List V} {E : St → Prop} (hT : T = true) (hA : ∀ v ∈ vs, v ∈ A ∧ v ∈ N)
    (hd : vs.Nodup)
    (hs : ∀ v ∈ vs, ¬ InSets lo c v) (ht : V.tuple ∈ A.filter (· ∉ vs)) (hz : V.tuple ∈ Z) (hr : r = none) :
    Tr T (I A Z N r x lo c) (buildTuple vs)
      (fun _ => I (A.filter (· ∉ vs)) (Z.filter (· ≠ .tuple)) (.tuple :: N) (some .tuple) x lo c) E := by
  subst hr
  refine Tr.bind (Tr.useAll' hA) (fun _ => ?_)
  refine Tr.bind (Tr.releaseAll (fun v hv => (hA v hv).1) hd hs) (fun _ => ?_)
  intro e hte s h
  have he : e.tuple = true := hte hT
  simp only [he, if_true]
  have := Tr.acquire (T := false) (E := fun _ => True) ht hz rfl (fun _ _ => trivial) ⟨fun _ => true, true⟩
    (fun _ => rfl) s h
  unfold Res.acquire at this
  rw [if_pos rfl] at this
  have h2 : I _ _ _ _ _ _ _ _ := this
  refine { h2 with ret := ?_ }
  simp

theorem Tr.onError {body err : M Unit} {P : St → Prop} {Q R : Unit → St → Prop} {E E' : St → Prop}
    (h1 : Tr T P body Q E') (h2 : Tr T E' err R E) :
    Tr T P (onError body err) (fun b s => if b then R () s else Q () s) E := by
  intro e ht s hs
  have := h1 e ht s hs
  unfold Res.onError
  cases h : body e s with
  | ok a s' => rw [h] at this; exact this
  | fault => rw [h] at this; exact this
  | jump s' =>
    rw [h] at this
    have := h2 e ht s' this
    dsimp only
    cases h' : err e s' with
    | ok a s'' => rw [h'] at this; exact this
    | jump s'' => rw [h'] at this; exact this
    | fault => rw [h'] at this; exact this

/-- States from which the statements at the label end with `R` -/
def Post (T : Bool) (ex : M Unit) (R : St → Prop) (s : St) : Prop :=
  ∀ e : Env, (T = true → e.tuple = true) → match ex e s with
    | .ok _ s' => R s'
    | .jump _ => False
    | .fault => False

theorem Tr.last {m ex : M Unit} {P P' : St → Prop} {R E : St → Prop}
    (h1 : Tr T P m (fun _ => P') E) (h2 : Tr T P' ex (fun _ => R) (fun _ => False)) :
    Tr T P m (fun _ => Post T ex R) E := by
  refine h1.mono (fun _ h => h) (fun _ s h => ?_) (fun _ h => h)
  intro e ht
  have := h2 e ht s h
  cases hx : ex e s with
  | ok a s' => rw [hx] at this; exact this
  | jump s' => rw [hx] at this; exact this
  | fault => rw [hx] at this; exact this

theorem Tr.withExit {body ex : M Unit} {P : St → Prop} {R : St → Prop}
    {E : St → Prop} (h1 : Tr T P body (fun _ => Post T ex R) E)
    (h3 : Tr T E ex (fun _ => R) (fun _ => False)) :
    Tr T P (withExit body ex) (fun _ => R) (fun _ => False) := by
  intro e ht s hs
  have := h1 e ht s hs
  unfold Res.withExit
  cases h : body e s with
  | ok a s' =>
    rw [h] at this
    have := this e ht
    dsimp only
    cases hx : ex e s' with
    | ok a s'' => rw [hx] at this; exact this
    | jump s'' => rw [hx] at this; exact this
    | fault => rw [hx] at this; exact this
  | jump s' => rw [h] at this; exact h3 e ht s' this
  | fault => rw [h] at this; exact this

end

/-! ### Beginning and end of a call -/

theorem I.init (A : List V) : I A A [] none false 0 0 St.init := by
  refine ⟨?_, ?_, ?_, ?_, ?_, ?_, ?_, rfl, rfl, rfl⟩
  · intro v k _ h; cases h
  · intro v w k _ _ h; cases h
  · intro k h; exact (h rfl).elim
  · intro k h; exact (h rfl).elim
  · intro v _; rfl
  · intro v h; cases h
  · rintro v ⟨j, f, h1, h2, _⟩; omega

theorem I.final_none {A Z N : List V} {x : Bool} {lo c : Nat} {s : St} (h : I A Z N none x lo c s)
    (hA : ∀ v ∈ A, v ∈ Z) (hc : c ≤ lo) : s.ret = none ∧ ∀ k, s.own k = none := by
  refine ⟨h.ret, fun k => ?_⟩
  refine Classical.byContradiction (fun hk => ?_)
  obtain ⟨v, hv, e⟩ := h.only k hk
  rcases hv with hv | ⟨j, f, h1, h2, _⟩
  · rw [h.null v (hA v hv)] at e; cases e
  · omega

theorem I.final_some {A Z N : List V} {w : V} {x : Bool} {lo c : Nat} {s : St}
    (h : I A Z N (some w) x lo c s)
    (hA : ∀ v ∈ A, v = w ∨ v ∈ Z) (hw : w ∈ A ∧ w ∈ N) (hk : kindOf w = .ref) (hc : c ≤ lo) :
    ∃ k, s.ret = some k ∧ ∀ j, s.own j = if j = k then some .ref else none := by
  have hr : s.ret = s.loc w := h.ret
  cases hl : s.loc w with
  | none => exact (h.nonnull w hw.2 hl).elim
  | some k =>
    refine ⟨k, hr.trans hl, fun j => ?_⟩
    by_cases hjk : j = k
    · rw [if_pos hjk, hjk, h.owns w k (Or.inl hw.1) hl, hk]
    · rw [if_neg hjk]
      refine Classical.byContradiction (fun hj => ?_)
      obtain ⟨v, hv, e⟩ := h.only j hj
      rcases hv with hv | ⟨j, f, h1, h2, _⟩
      · rcases hA v hv with q | q
        · rw [q, hl] at e
          exact hjk (Option.some.inj e).symm
        · rw [h.null v q] at e; cases e
      · omega

/-! ### Rules for the step by step proof -/

theorem bind_assoc' {α β γ : Type} (m : M α) (f : α → M β) (g : β → M γ) :
    (m >>= f) >>= g = m >>= fun a => f a >>= g := by
  funext e s
  simp only [bind_def]
  cases m e s <;> rfl

theorem pure_bind' {α β : Type} (a : α) (f : α → M β) : (pure a : M α) >>= f = f a := rfl

theorem notInSets (lo : Nat) (v : V) : ¬ InSets lo lo v := by
  rintro ⟨j, f, h1, h2, _⟩
  omega

section
variable {T : Bool} {A Z N : List V} {r : Option V} {x : Bool} {lo c : Nat}

theorem Tr.failIf {m : M Bool} {P : St → Prop} {Q R E : St → Prop}
    (h : Tr T P m (fun b s => if b then R s else Q s) E) (hE : ∀ s, R s → E s) :
    Tr T P (failIf m) (fun _ => Q) E := by
  intro e ht s hs
  have := h e ht s hs
  unfold Res.failIf
  cases hm : m e s with
  | ok b s' =>
    rw [hm] at this
    cases b
    · simpa using this
    · simp only [if_true] at this
      exact hE s' this
  | jump s' => rw [hm] at this; exact this
  | fault => rw [hm] at this; exact this

theorem Tr.ignoreResult {m : M Bool} {P Q E : St → Prop}
    (h : Tr T P m (fun _ s => Q s) E) : Tr T P (ignoreResult m) (fun _ => Q) E := by
  intro e ht s hs
  have := h e ht s hs
  unfold Res.ignoreResult
  cases hm : m e s with
  | ok b s' => rw [hm] at this; exact this
  | jump s' => rw [hm] at this; exact this
  | fault => rw [hm] at this; exact this

theorem Tr.orElseReturn {m g : M Bool} {P Q R E : St → Prop} {Q' : Bool → St → Prop}
    (h : Tr T P m (fun b s => if b then R s else Q s) E) (hR : ∀ s, R s → Q' true s)
    (hg : Tr T Q g Q' E) : Tr T P (orElseReturn m g) Q' E := by
  intro e ht s hs
  have := h e ht s hs
  unfold Res.orElseReturn
  cases hm : m e s with
  | ok b s' =>
    rw [hm] at this
    cases b
    · simp only [Bool.false_eq_true, if_false] at this
      exact hg e ht s' this
    · simp only [if_true] at this
      exact hR s' this
  | jump s' => rw [hm] at this; exact this
  | fault => rw [hm] at this; exact this

/-- The return value is not null. -/
theorem Tr.retSome {w : V} {E : St → Prop} (hr : r = some w) (hw : w ∈ N) :
    Tr T (I A Z N r x lo c) (fun e s => if s.ret = none then Res.goto e s else .ok () s)
      (fun _ => I A Z N r x lo c) E := by
  subst hr
  intro e ht s h
  have hr : s.ret = s.loc w := h.ret
  have : s.ret ≠ none := by rw [hr]; exact h.nonnull w hw
  simp only [this, if_false]
  exact h

end

/-! ### Structures -/

section
variable {T : Bool} {A Z N : List V} {r : Option V} {x : Bool} {lo c : Nat}

theorem I.conv {A' Z' N' : List V} {s : St} (h : I A Z N r x lo c s)
    (hA : ∀ v ∈ A', v ∈ A ∨ v ∈ Z) (hA' : ∀ v ∈ A, v ∈ A' ∨ v ∈ Z) (hZ : Z' ⊆ Z) (hN : N' ⊆ N) :
    I A' Z' N' r x lo c s := by
  have h1 : I (A ++ A') Z N r x lo c s := h.addVars (List.subset_append_left _ _) (fun v hv => by
    rcases List.mem_append.1 hv with q | q
    · exact Or.inl q
    · exact hA v q)
  have h2 : I A' Z N r x lo c s := h1.vars (List.subset_append_right _ _) (fun v hv => by
    rcases List.mem_append.1 hv with q | q
    · exact hA' v q
    · exact Or.inl q)
  exact h2.weaken hZ hN

theorem Tr.acquireAll {vs : List V} {E : St → Prop} (hd : vs.Nodup) (hA : ∀ v ∈ vs, v ∈ A)
    (hZ : ∀ v ∈ vs, v ∈ Z) (hr : r = none) (hE : ∀ s, I A (Z.filter (· ∉ vs)) N none true lo c s → E s) :
    Tr T (I A Z N r x lo c) (Res.acquireAll vs)
      (fun _ => I A (Z.filter (· ∉ vs)) (vs ++ N) none x lo c) E := by
  subst hr
  induction vs generalizing Z N with
  | nil =>
    refine Tr.pure (fun _ h => h.conv (fun v hv => Or.inl hv) (fun v hv => Or.inl hv) ?_ ?_)
    · intro v hv; exact (List.mem_filter.1 hv).1
    · intro v hv; exact hv
  | cons v vs ih =>
    rw [List.nodup_cons] at hd
    refine Tr.bind (Tr.acquire (hA v (List.mem_cons_self ..)) (hZ v (List.mem_cons_self ..)) rfl
      (fun s h => hE s (h.weaken (fun w hw => (List.mem_filter.1 hw).1) (fun w hw => hw)))) (fun _ => ?_)
    refine (ih hd.2 (fun w hw => hA w (List.mem_cons_of_mem _ hw)) (fun w hw => ?_) (fun s h =>
      hE s (h.weaken ?_ (List.subset_cons_self _ _)))).mono
      (fun _ h => h) (fun _ s h => ?_) (fun _ h => h)
    · refine List.mem_filter.2 ⟨hZ w (List.mem_cons_of_mem _ hw), ?_⟩
      simp only [decide_eq_true_eq]
      rintro rfl
      exact hd.1 hw
    · intro w hw
      simp only [List.mem_filter, List.mem_cons, decide_eq_true_eq, not_or] at hw ⊢
      exact ⟨⟨hw.1, hw.2.1⟩, hw.2.2⟩
    · refine h.weaken ?_ ?_
      · intro w hw
        simp only [List.mem_filter, List.mem_cons, decide_eq_true_eq, not_or] at hw ⊢
        exact ⟨⟨hw.1, hw.2.1⟩, hw.2.2⟩
      · intro w hw
        simp only [List.mem_append, List.mem_cons] at hw ⊢
        rcases hw with (q | q) | q
        · exact Or.inr (Or.inl q)
        · exact Or.inl q
        · exact Or.inr (Or.inr q)

/-- Release of all fields and `memset` of the structure -/
theorem Tr.destroy {vs : List V} {E : St → Prop} (hd : vs.Nodup) (hA : ∀ v ∈ vs, v ∈ A)
    (hs : ∀ v ∈ vs, ¬ InSets lo c v) (hr : ∀ w, r = some w → w ∉ vs) :
    Tr T (I A Z N r x lo c) (do Res.releaseAll vs; Res.reset vs)
      (fun _ => I A (vs ++ Z) (N.filter (· ∉ vs)) r x lo c) E := by
  refine Tr.bind (Tr.releaseAll hA hd hs) (fun _ => ?_)
  refine (Tr.reset (fun v hv => Or.inr ?_) hs hr).mono (fun _ h => h) (fun _ s h => ?_) (fun _ h => h)
  · simp [hv]
  · refine h.conv ?_ ?_ (fun v hv => hv) (fun v hv => hv)
    · intro v hv
      by_cases q : v ∈ vs
      · exact Or.inl (List.mem_append.2 (Or.inl q))
      · exact Or.inl (List.mem_append.2 (Or.inr (List.mem_filter.2 ⟨hv, by simpa using q⟩)))
    · intro v hv
      rcases List.mem_append.1 hv with q | q
      · exact Or.inl (hA v q)
      · exact Or.inl (List.mem_filter.1 q).1

/-- Initialisation of a structure with the fields `vs` -/
theorem Tr.initFields {vs : List V} {E : St → Prop} (hd : vs.Nodup) (hA : ∀ v ∈ vs, v ∈ A)
    (hZ : ∀ v ∈ vs, v ∈ Z) (hs : ∀ v ∈ vs, ¬ InSets lo c v) (hr : r = none) :
    Tr T (I A Z N r x lo c)
      (Res.onError (do Res.reset vs; Res.acquireAll vs) (do Res.releaseAll vs; Res.reset vs))
      (fun b s => if b then I A Z (N.filter (· ∉ vs)) none true lo c s
        else I A (Z.filter (· ∉ vs)) (vs ++ N.filter (· ∉ vs)) none x lo c s) E := by
  subst hr
  refine (Tr.onError (E' := I A (Z.filter (· ∉ vs)) (N.filter (· ∉ vs)) none true lo c) (Q := fun _ => I A (Z.filter (· ∉ vs))
    (vs ++ N.filter (· ∉ vs)) none x lo c) (R := fun _ => I A Z (N.filter (· ∉ vs)) none true lo c) ?_ ?_).mono
    (fun _ h => h) (fun b s h => h) (fun _ h => h)
  · refine Tr.bind (Tr.reset (fun v hv => Or.inl (hZ v hv)) hs (by simp)) (fun _ => ?_)
    refine (Tr.acquireAll hd (fun v hv => List.mem_append.2 (Or.inl hv))
      (fun v hv => List.mem_append.2 (Or.inl hv)) rfl (fun s h => ?_)).mono (fun _ h => h)
      (fun _ s h => ?_) (fun _ h => h)
    · refine h.conv (fun v hv => Or.inl (List.mem_append.2 (Or.inr hv))) ?_ ?_ (fun v hv => hv)
      · intro v hv
        rcases List.mem_append.1 hv with q | q
        · exact Or.inl (hA v q)
        · exact Or.inl q
      · intro v hv
        simp only [List.mem_filter, List.mem_append] at hv ⊢
        exact ⟨Or.inr hv.1, hv.2⟩
    · refine h.conv (fun v hv => Or.inl (List.mem_append.2 (Or.inr hv))) ?_ ?_ (fun v hv => hv)
      · intro v hv
        rcases List.mem_append.1 hv with q | q
        · exact Or.inl (hA v q)
        · exact Or.inl q
      · intro v hv
        simp only [List.mem_filter, List.mem_append] at hv ⊢
        exact ⟨Or.inr hv.1, hv.2⟩
  · refine (Tr.destroy hd hA hs (by simp)).mono (fun _ h => h) (fun _ s h => ?_) (fun _ h => h)
    refine h.weaken (fun v hv => ?_) (fun v hv => List.mem_filter.2 ⟨hv, (List.mem_filter.1 hv).2⟩)
    by_cases q : v ∈ vs
    · exact List.mem_append.2 (Or.inl q)
    · exact List.mem_append.2 (Or.inr (List.mem_filter.2 ⟨hv, by simpa using q⟩))

theorem Tr.fourier2dInit {E : St → Prop} (hA : ∀ v ∈ f2dFields, v ∈ A) (hZ : ∀ v ∈ f2dFields, v ∈ Z)
    (hs : ∀ v ∈ f2dFields, ¬ InSets lo c v) (hr : r = none) :
    Tr T (I A Z N r x lo c) Res.fourier2dInit
      (fun b s => if b then I A Z (N.filter (· ∉ f2dFields)) none true lo c s
        else I A (Z.filter (· ∉ f2dFields)) (f2dFields ++ N.filter (· ∉ f2dFields)) none x lo c s) E :=
  Tr.initFields (vs := f2dFields) (by decide) hA hZ hs hr

theorem Tr.fourier2dDestroy {E : St → Prop} (hA : ∀ v ∈ f2dFields, v ∈ A)
    (hs : ∀ v ∈ f2dFields, ¬ InSets lo c v) (hr : ∀ w, r = some w → w ∉ f2dFields) :
    Tr T (I A Z N r x lo c) Res.fourier2dDestroy
      (fun _ => I A (f2dFields ++ Z) (N.filter (· ∉ f2dFields)) r x lo c) E :=
  Tr.destroy (vs := f2dFields) (by decide) hA hs hr

theorem Tr.modelInit {E : St → Prop} (hA : ∀ v ∈ modelFields, v ∈ A) (hZ : ∀ v ∈ modelFields, v ∈ Z)
    (hs : ∀ v ∈ modelFields, ¬ InSets lo c v) (hr : r = none) :
    Tr T (I A Z N r x lo c) Res.modelInit
      (fun b s => if b then I A Z (N.filter (· ∉ modelFields)) none true lo c s
        else I A (Z.filter (· ∉ modelFields)) (modelFields ++ N.filter (· ∉ modelFields)) none x lo c s) E :=
  Tr.initFields (vs := modelFields) (by decide) hA hZ hs hr

theorem Tr.modelDestroy {E : St → Prop} (hA : ∀ v ∈ modelFields, v ∈ A)
    (hs : ∀ v ∈ modelFields, ¬ InSets lo c v) (hr : ∀ w, r = some w → w ∉ modelFields) :
    Tr T (I A Z N r x lo c) Res.modelDestroy
      (fun _ => I A (modelFields ++ Z) (N.filter (· ∉ modelFields)) r x lo c) E :=
  Tr.destroy (vs := modelFields) (by decide) hA hs hr

/-- All fields of `MODEL_TS` and of `MODEL_2DFS` -/
abbrev tsFields : List V := V.model_coef :: modelFields

theorem Tr.modelTsDestroy {E : St → Prop} (hA : ∀ v ∈ tsFields, v ∈ A)
    (hs : ∀ v ∈ tsFields, ¬ InSets lo c v) (hr : ∀ w, r = some w → w ∉ tsFields) :
    Tr T (I A Z N r x lo c) Res.modelTsDestroy
      (fun _ => I A (tsFields ++ Z) (N.filter (· ∉ tsFields)) r x lo c) E := by
  refine Tr.bind (Tr.release (hA _ (List.mem_cons_self ..)) (hs _ (List.mem_cons_self ..))) (fun _ => ?_)
  refine Tr.bind (Tr.modelDestroy (fun v hv => ?_) (fun v hv => hs v (List.mem_cons_of_mem _ hv))
    (fun w hw q => hr w hw (List.mem_cons_of_mem _ q))) (fun _ => ?_)
  · refine List.mem_filter.2 ⟨hA v (List.mem_cons_of_mem _ hv), ?_⟩
    simp only [decide_eq_true_eq]
    rintro rfl
    revert hv
    decide
  · refine (Tr.reset (fun v hv => Or.inr ?_) (fun v hv => ?_) (fun w hw q => ?_)).mono (fun _ h => h)
      (fun _ s h => ?_) (fun _ h => h)
    · simp only [List.mem_singleton] at hv
      simp [hv]
    · simp only [List.mem_singleton] at hv
      rw [hv]
      exact hs _ (List.mem_cons_self ..)
    · simp only [List.mem_singleton] at q
      rw [q] at hw
      exact hr _ hw (List.mem_cons_self ..)
    · refine h.conv ?_ ?_ ?_ ?_
      · intro v hv
        by_cases q : v = .model_coef
        · exact Or.inl (by simp [q])
        · exact Or.inl (by simp [hv, q])
      · intro v hv
        simp only [List.cons_append, List.nil_append, List.mem_cons, List.mem_filter] at hv
        rcases hv with q | q
        · exact Or.inl (q ▸ hA _ (List.mem_cons_self ..))
        · exact Or.inl q.1
      · intro v hv
        simpa using hv
      · intro v hv
        simp only [List.mem_filter, List.mem_cons, decide_eq_true_eq, not_or, List.not_mem_nil, or_false,
          not_false_eq_true] at hv ⊢
        exact ⟨⟨hv.1, hv.2.2⟩, hv.2.1⟩

theorem Tr.modelTsInit {E : St → Prop} (hA : ∀ v ∈ tsFields, v ∈ A) (hZ : ∀ v ∈ tsFields, v ∈ Z)
    (hs : ∀ v ∈ tsFields, ¬ InSets lo c v) (hr : r = none) :
    Tr T (I A Z N r x lo c) Res.modelTsInit
      (fun b s => if b then I A Z (N.filter (· ∉ tsFields)) none true lo c s
        else I A (Z.filter (· ∉ tsFields)) (tsFields ++ N.filter (· ∉ tsFields)) none x lo c s) E := by
  subst hr
  refine (Tr.onError (E' := I A (Z.filter (· ∉ tsFields)) (N.filter (· ∉ tsFields)) none true lo c) (Q := fun _ => I A (Z.filter (· ∉ tsFields))
    (tsFields ++ N.filter (· ∉ tsFields)) none x lo c) (R := fun _ => I A Z (N.filter (· ∉ tsFields)) none true lo c)
    ?_ ?_).mono (fun _ h => h) (fun b s h => h) (fun _ h => h)
  · refine Tr.bind (Tr.reset (fun v hv => Or.inl (hZ v hv)) hs (by simp)) (fun _ => ?_)
    refine Tr.bind (Tr.failIf (Tr.modelInit
      (fun v hv => List.mem_append.2 (Or.inl (List.mem_cons_of_mem _ hv)))
      (fun v hv => List.mem_append.2 (Or.inl (List.mem_cons_of_mem _ hv)))
      (fun v hv => hs v (List.mem_cons_of_mem _ hv)) rfl) (fun s h => ?_)) (fun _ => ?_)
    · refine h.conv (fun v hv => Or.inl (List.mem_append.2 (Or.inr hv))) ?_
        (fun v hv => List.mem_append.2 (Or.inr (List.mem_filter.1 hv).1)) (fun v hv => List.mem_filter.2 ⟨hv, by
          simp only [List.mem_filter, List.mem_cons, decide_eq_true_eq, not_or] at hv ⊢; exact hv.2.2⟩)
      intro v hv
      rcases List.mem_append.1 hv with q | q
      · exact Or.inl (hA v q)
      · exact Or.inl q
    · refine (Tr.acquire (List.mem_append.2 (Or.inl (List.mem_cons_self ..))) ?_ rfl (fun s h => ?_)).mono
        (fun _ h => h) (fun _ s h => ?_) (fun _ h => h)
      · refine List.mem_filter.2 ⟨List.mem_append.2 (Or.inl (List.mem_cons_self ..)), by decide⟩
      · refine h.conv (fun v hv => Or.inl (List.mem_append.2 (Or.inr hv))) ?_ ?_ (fun v hv => List.mem_append.2 (Or.inr (List.mem_filter.2 ⟨hv, by
          simp only [List.mem_filter, List.mem_cons, decide_eq_true_eq, not_or] at hv ⊢; exact hv.2.2⟩)))
        · intro v hv
          rcases List.mem_append.1 hv with q | q
          · exact Or.inl (hA v q)
          · exact Or.inl q
        · intro v hv
          simp only [List.mem_filter, List.mem_append, List.mem_cons, decide_eq_true_eq, not_or] at hv ⊢
          exact ⟨Or.inr hv.1, hv.2.2⟩
      · refine h.conv (fun v hv => Or.inl (List.mem_append.2 (Or.inr hv))) ?_ ?_ ?_
        · intro v hv
          rcases List.mem_append.1 hv with q | q
          · exact Or.inl (hA v q)
          · exact Or.inl q
        · intro v hv
          simp only [List.mem_filter, List.mem_append, List.mem_cons, decide_eq_true_eq, not_or] at hv ⊢
          exact ⟨⟨Or.inr hv.1, hv.2.2⟩, hv.2.1⟩
        · intro v hv
          simp only [List.mem_filter, List.mem_append, List.mem_cons, decide_eq_true_eq, not_or] at hv ⊢
          rcases hv with (q | q) | q
          · exact Or.inl q
          · exact Or.inr (Or.inl q)
          · exact Or.inr (Or.inr ⟨⟨q.1, q.2⟩, q.2.2⟩)
  · refine (Tr.modelTsDestroy hA hs (by simp)).mono (fun _ h => h) (fun _ s h => ?_) (fun _ h => h)
    refine h.weaken (fun v hv => ?_) (fun v hv => List.mem_filter.2 ⟨hv, (List.mem_filter.1 hv).2⟩)
    by_cases q : v ∈ tsFields
    · exact List.mem_append.2 (Or.inl q)
    · exact List.mem_append.2 (Or.inr (List.mem_filter.2 ⟨hv, by simpa using q⟩))

end

theorem I.weaken' {A Z N Z' : List V} {r : Option V} {x : Bool} {lo c : Nat} {s : St}
    (h : I A Z N r x lo c s) (hZ : ∀ v ∈ Z', v ∈ Z) : I A Z' [] r x lo c s :=
  h.weaken (fun v hv => hZ v hv) (List.nil_subset _)

theorem I.conv' {A Z N A' Z' : List V} {r : Option V} {x : Bool} {lo c : Nat} {s : St}
    (h : I A Z N r x lo c s) (hA : ∀ v ∈ A', v ∈ A ∨ v ∈ Z) (hA' : ∀ v ∈ A, v ∈ A' ∨ v ∈ Z)
    (hZ : ∀ v ∈ Z', v ∈ Z) : I A' Z' [] r x lo c s :=
  h.conv hA hA' (fun v hv => hZ v hv) (List.nil_subset _)

/-- Fields of coefficient sets -/
def isSet : V → Bool
  | .coefsets _ _ => true
  | _ => false

theorem notSet (lo c : Nat) (v : V) (h : isSet v = false) : ¬ InSets lo c v := by
  rintro ⟨j, f, _, _, rfl⟩
  exact Bool.noConfusion h

/-- Whether a flag is given and has no truth value -/
def badFlag : Option Bool → Bool
  | some false => true
  | _ => false

section
variable {T : Bool} {A Z N : List V} {r : Option V} {x : Bool} {lo c : Nat}

theorem Tr.optionalFlag {E : St → Prop} (f : Option Bool) :
    Tr T (I A Z N r x lo c) (Res.optionalFlag f) (fun _ => I A Z N r (x || badFlag f) lo c) E := by
  rcases f with _ | _ | _
  · exact Tr.pure (fun _ h => by simpa [badFlag] using h)
  · exact Tr.isTrue false
  · exact Tr.isTrue true

theorem Tr.scaleFactors {E : St → Prop} (b : Bool) (hA : V.arr_scale ∈ A) (hZ : V.arr_scale ∈ Z)
    (hr : r = none) (hE : ∀ s, I A (Z.filter (· ≠ .arr_scale)) [] none true lo c s → E s) :
    Tr T (I A Z N r x lo c) (Res.scaleFactors b)
      (fun _ => I A (Z.filter (· ≠ .arr_scale)) N none x lo c) E := by
  subst hr
  have sub : Z.filter (· ≠ .arr_scale) ⊆ Z := fun v hv => (List.mem_filter.1 hv).1
  cases b
  · exact Tr.pure (fun _ h => h.weaken sub (fun v hv => hv))
  · refine Tr.bind (Tr.acquire hA hZ rfl (fun s h => hE s (h.weaken sub (List.nil_subset _)))) (fun _ => ?_)
    refine Tr.bind (Tr.use' hA (List.mem_cons_self ..)) (fun _ => ?_)
    exact (Tr.check rfl (fun s h => hE s (h.weaken (fun v hv => hv) (List.nil_subset _)))).mono
      (fun _ h => h) (fun _ _ h => h.weaken (fun v hv => hv) (fun v hv => List.mem_cons_of_mem _ hv))
      (fun _ h => h)

end

theorem Tr.matchOut {T : Bool} {m f g : M Unit} {P Q E E' : St → Prop} {R : Unit → St → Prop}
    (h1 : Tr T P m (fun _ => Q) E') (h2 : Tr T Q f R E) (h3 : Tr T E' g R E) :
    Tr T P (fun e s => match m e s with
      | .ok _ s' => f e s'
      | .jump s' => g e s'
      | .fault => .fault) R E := by
  intro e ht s hs
  have h := h1 e ht s hs
  dsimp only
  cases hm : m e s with
  | ok a s' => rw [hm] at h; exact h2 e ht s' h
  | jump s' => rw [hm] at h; exact h3 e ht s' h
  | fault => rw [hm] at h; exact h.elim

theorem Tr.or {T : Bool} {α : Type} {P1 P2 : St → Prop} {m : M α} {Q : α → St → Prop} {E : St → Prop}
    (h1 : Tr T P1 m Q E) (h2 : Tr T P2 m Q E) : Tr T (fun s => P1 s ∨ P2 s) m Q E := by
  rintro e ht s (h | h)
  · exact h1 e ht s h
  · exact h2 e ht s h

/-- One statement followed by others. -/
macro "rstep" : tactic => `(tactic| first
  | refine Tr.bind (Tr.check rfl (fun _ h => by first | exact h.weaken' (by decide +kernel) | exact ⟨_, h.conv' (by decide +kernel) (by decide +kernel) (by decide +kernel)⟩)) (fun _ => ?_)
  | refine Tr.bind (Tr.acquire (by decide +kernel) (by decide +kernel) rfl
      (fun _ h => by first | exact h.weaken' (by decide +kernel) | exact ⟨_, h.conv' (by decide +kernel) (by decide +kernel) (by decide +kernel)⟩)) (fun _ => ?_)
  | refine Tr.bind (Tr.use' (by decide +kernel) (by decide +kernel)) (fun _ => ?_)
  | refine Tr.bind (Tr.useAll' (by decide +kernel)) (fun _ => ?_)
  | refine Tr.bind (Tr.isTrue _) (fun _ => ?_)
  | refine Tr.bind (Tr.optionalFlag _) (fun _ => ?_)
  | refine Tr.bind (Tr.scaleFactors _ (by decide +kernel) (by decide +kernel) rfl
      (fun _ h => by first | exact h.weaken' (by decide +kernel) | exact ⟨_, h.conv' (by decide +kernel) (by decide +kernel) (by decide +kernel)⟩)) (fun _ => ?_)
  | refine Tr.bind (Tr.failIf (Tr.fourier2dInit (by decide +kernel) (by decide +kernel) (fun v hv => notSet _ _ v ((by decide +kernel : ∀ w ∈ _, isSet w = false) v hv)) rfl)
      (fun _ h => by first | exact h.weaken' (by decide +kernel) | exact ⟨_, h.conv' (by decide +kernel) (by decide +kernel) (by decide +kernel)⟩)) (fun _ => ?_)
  | refine Tr.bind (Tr.failIf (Tr.modelInit (by decide +kernel) (by decide +kernel) (fun v hv => notSet _ _ v ((by decide +kernel : ∀ w ∈ _, isSet w = false) v hv)) rfl)
      (fun _ h => by first | exact h.weaken' (by decide +kernel) | exact ⟨_, h.conv' (by decide +kernel) (by decide +kernel) (by decide +kernel)⟩)) (fun _ => ?_)
  | refine Tr.bind (Tr.failIf (Tr.modelTsInit (by decide +kernel) (by decide +kernel) (fun v hv => notSet _ _ v ((by decide +kernel : ∀ w ∈ _, isSet w = false) v hv)) rfl)
      (fun _ h => by first | exact h.weaken' (by decide +kernel) | exact ⟨_, h.conv' (by decide +kernel) (by decide +kernel) (by decide +kernel)⟩)) (fun _ => ?_)
  | refine Tr.bind (Tr.fourier2dDestroy (by decide +kernel) (fun v hv => notSet _ _ v ((by decide +kernel : ∀ w ∈ _, isSet w = false) v hv)) (by simp [f2dFields])) (fun _ => ?_)
  | refine Tr.bind (Tr.modelDestroy (by decide +kernel) (fun v hv => notSet _ _ v ((by decide +kernel : ∀ w ∈ _, isSet w = false) v hv)) (by simp [modelFields])) (fun _ => ?_)
  | refine Tr.bind (Tr.modelTsDestroy (by decide +kernel) (fun v hv => notSet _ _ v ((by decide +kernel : ∀ w ∈ _, isSet w = false) v hv)) (by simp [modelFields])) (fun _ => ?_)
  | refine Tr.bind Tr.setRet (fun _ => ?_)
  | refine Tr.bind (Tr.buildTuple rfl (by decide +kernel) (by decide +kernel) (fun v hv => notSet _ _ v ((by decide +kernel : ∀ w ∈ _, isSet w = false) v hv)) (by decide +kernel)
      (by decide +kernel) rfl) (fun _ => ?_)
  | refine Tr.bind (Tr.retSome rfl (by decide +kernel)) (fun _ => ?_)
  | refine Tr.bind (Tr.reset (by decide +kernel) (fun v hv => notSet _ _ v ((by decide +kernel : ∀ w ∈ _, isSet w = false) v hv)) (by simp)) (fun _ => ?_)
  | refine Tr.bind (Tr.release (by decide +kernel) (notSet _ _ _ rfl)) (fun _ => ?_)
  | refine Tr.bind (Tr.unlessNull (by decide +kernel) (notSet _ _ _ rfl) rfl) (fun _ => ?_)
  | refine Tr.bind (Tr.unlessSome rfl (by decide +kernel)) (fun _ => ?_))

/-- The last statement of a body. -/
macro "rlast" : tactic => `(tactic| first
  | refine Tr.last Tr.setRet ?_
  | refine Tr.last (Tr.useAll' (by decide +kernel)) ?_
  | refine Tr.last (Tr.buildTuple rfl (by decide +kernel) (by decide +kernel) (fun v hv => notSet _ _ v ((by decide +kernel : ∀ w ∈ _, isSet w = false) v hv)) (by decide +kernel)
      (by decide +kernel) rfl) ?_)

end Verif.Res
