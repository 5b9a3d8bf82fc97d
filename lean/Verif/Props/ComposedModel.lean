/-
Properties C39 and C40: composed geomagnetic models.
-/
import Verif.Model.ComposedModel
import Verif.Props.FullEval
import Verif.Lemmas.NdArray
import Mathlib.Algebra.BigOperators.Group.List.Basic

set_option linter.unusedSectionVars false

namespace Verif.Props

open Verif.Geo Verif.Spec Verif.ShPoint Verif.FullEval Verif.ComposedModel

/-! ### C40 -/

section validity
variable {T : Type} [LinearOrder T] [BoundedOrder T]

/-- `t` is in the closed interval. -/
def Within (t : T) (v : T × T) : Prop := v.1 ≤ t ∧ t ≤ v.2

theorem overlap_within {t : T} (ht : ⊥ < t) (v w : T × T) :
    Within t (validityOverlap v w) ↔ Within t v ∧ Within t w := by
  unfold validityOverlap Within
  by_cases h : min v.2 w.2 < max v.1 w.1
  · simp only [h, if_true]
    constructor
    · intro h'; exact absurd h'.2 (not_le.mpr ht)
    · rintro ⟨⟨a, b⟩, c, d⟩
      exact absurd ((max_le a c).trans (le_min b d)) (not_le.mpr h)
  · simp only [h, if_false, max_le_iff, le_min_iff]
    tauto

theorem foldl_within {t : T} (ht : ⊥ < t) : ∀ (l : List (T × T)) (v : T × T),
    Within t (l.foldl validityOverlap v) ↔ Within t v ∧ ∀ m ∈ l, Within t m
  | [], v => by simp
  | m :: l, v => by
    rw [List.foldl_cons, foldl_within ht l, overlap_within ht, List.forall_mem_cons, and_assoc]

/-- **C40**.  A time other than `-inf` is within the validity exactly if it is within the
validity of each member. -/
theorem C40_intersection (members : List (T × T)) (t : T) (ht : ⊥ < t) :
    Within t (validity members) ↔ ∀ m ∈ members, Within t m := by
  unfold validity
  rw [foldl_within ht]
  simp [Within]

theorem foldl_bot : ∀ l : List (T × T), l.foldl validityOverlap (⊥, ⊥) = (⊥, ⊥)
  | [] => rfl
  | m :: l => by
    have : validityOverlap (⊥, ⊥) m = (⊥, ⊥) := by
      unfold validityOverlap
      simp only [bot_le, sup_of_le_right, inf_of_le_left]
      split
      · rfl
      · rename_i h
        rw [not_lt, le_bot_iff] at h
        rw [h]
    rw [List.foldl_cons, this, foldl_bot l]

theorem foldl_cases : ∀ (l : List (T × T)) (v : T × T), v.1 ≤ v.2 →
    (l.foldl validityOverlap v = (⊥, ⊥) ∧ ∃ a ∈ v :: l, ∃ b ∈ v :: l, b.2 < a.1) ∨
    (Within (l.foldl validityOverlap v).1 (l.foldl validityOverlap v) ∧
      (∀ m ∈ v :: l, m.1 ≤ (l.foldl validityOverlap v).1 ∧ (l.foldl validityOverlap v).2 ≤ m.2) ∧
      (∃ m ∈ v :: l, m.1 = (l.foldl validityOverlap v).1) ∧
      ∃ m ∈ v :: l, m.2 = (l.foldl validityOverlap v).2)
  | [], v, h => .inr ⟨⟨le_refl _, h⟩, by simp, ⟨v, by simp, rfl⟩, v, by simp, rfl⟩
  | m :: l, v, h => by
    rw [List.foldl_cons]
    by_cases hc : min v.2 m.2 < max v.1 m.1
    · left
      have e : validityOverlap v m = (⊥, ⊥) := by unfold validityOverlap; simp only [hc, if_true]
      rw [e, foldl_bot]
      refine ⟨rfl, ?_⟩
      rcases le_total v.1 m.1 with h1 | h1 <;> rcases le_total v.2 m.2 with h2 | h2 <;>
        simp only [h1, h2, sup_of_le_left, sup_of_le_right, inf_of_le_left, inf_of_le_right] at hc
      · exact ⟨m, by simp, v, by simp, hc⟩
      · exact ⟨m, by simp, m, by simp, hc⟩
      · exact ⟨v, by simp, v, by simp, hc⟩
      · exact ⟨v, by simp, m, by simp, hc⟩
    · have e : validityOverlap v m = (max v.1 m.1, min v.2 m.2) := by
        unfold validityOverlap; simp only [hc, if_false]
      have hmax : ∃ a ∈ v :: m :: l, a.1 = max v.1 m.1 := by
        rcases le_total v.1 m.1 with h1 | h1
        · exact ⟨m, by simp, by simp [h1]⟩
        · exact ⟨v, by simp, by simp [h1]⟩
      have hmin : ∃ a ∈ v :: m :: l, a.2 = min v.2 m.2 := by
        rcases le_total v.2 m.2 with h1 | h1
        · exact ⟨v, by simp, by simp [h1]⟩
        · exact ⟨m, by simp, by simp [h1]⟩
      rw [e]
      rcases foldl_cases l (max v.1 m.1, min v.2 m.2) (not_lt.mp hc) with ⟨h1, a, ha, b, hb, hab⟩ | ⟨h1, h2, h3, h4⟩
      · refine .inl ⟨h1, ?_⟩
        have ha' : ∃ a' ∈ v :: m :: l, a'.1 = a.1 := by
          rcases List.mem_cons.mp ha with rfl | ha
          · exact hmax
          · exact ⟨a, by simp [ha], rfl⟩
        have hb' : ∃ b' ∈ v :: m :: l, b'.2 = b.2 := by
          rcases List.mem_cons.mp hb with rfl | hb
          · exact hmin
          · exact ⟨b, by simp [hb], rfl⟩
        obtain ⟨a', ha1, ha2⟩ := ha'
        obtain ⟨b', hb1, hb2⟩ := hb'
        exact ⟨a', ha1, b', hb1, by rw [ha2, hb2]; exact hab⟩
      · refine .inr ⟨h1, ?_, ?_, ?_⟩
        · rw [List.forall_mem_cons] at h2
          obtain ⟨⟨k1, k2⟩, h2⟩ := h2
          simp only [max_le_iff, le_min_iff] at k1 k2
          intro x hx
          rcases List.mem_cons.mp hx with rfl | hx
          · exact ⟨k1.1, k2.1⟩
          rcases List.mem_cons.mp hx with rfl | hx
          · exact ⟨k1.2, k2.2⟩
          · exact h2 x hx
        · obtain ⟨a, ha, e⟩ := h3
          rcases List.mem_cons.mp ha with rfl | ha
          · obtain ⟨a', h', e'⟩ := hmax
            exact ⟨a', h', by rw [e', ← e]⟩
          · exact ⟨a, by simp [ha], e⟩
        · obtain ⟨a, ha, e⟩ := h4
          rcases List.mem_cons.mp ha with rfl | ha
          · obtain ⟨a', h', e'⟩ := hmin
            exact ⟨a', h', by rw [e', ← e]⟩
          · exact ⟨a, by simp [ha], e⟩

/-- **C40**.  If a time is common to all members, the validity starts at the latest start
and ends at the earliest end. -/
theorem C40_bounds (members : List (T × T)) (h : ∃ t, ∀ m ∈ members, Within t m) :
    (validity members).1 ≤ (validity members).2 ∧
    (∀ m ∈ members, m.1 ≤ (validity members).1 ∧ (validity members).2 ≤ m.2) ∧
    ((validity members).1 = ⊥ ∨ ∃ m ∈ members, m.1 = (validity members).1) ∧
    ((validity members).2 = ⊤ ∨ ∃ m ∈ members, m.2 = (validity members).2) := by
  obtain ⟨t, ht⟩ := h
  rcases foldl_cases members (⊥, ⊤) bot_le with ⟨-, a, ha, b, hb, hab⟩ | ⟨h1, h2, h3, h4⟩
  · have : ∀ x ∈ (⊥, ⊤) :: members, Within t x := by
      intro x hx
      rcases List.mem_cons.mp hx with rfl | hx
      · exact ⟨bot_le, le_top⟩
      · exact ht x hx
    exact absurd ((this a ha).1.trans (this b hb).2) (not_le.mpr hab)
  · refine ⟨h1.2, fun m hm => h2 m (by simp [hm]), ?_, ?_⟩
    · obtain ⟨m, hm, e⟩ := h3
      rcases List.mem_cons.mp hm with rfl | hm
      · exact .inl e.symm
      · exact .inr ⟨m, hm, e⟩
    · obtain ⟨m, hm, e⟩ := h4
      rcases List.mem_cons.mp hm with rfl | hm
      · exact .inl e.symm
      · exact .inr ⟨m, hm, e⟩

/-- **C40**.  If no time is common to all members, the validity contains no time except
`-inf`. -/
theorem C40_empty (members : List (T × T)) (h : ¬∃ t, ∀ m ∈ members, Within t m) :
    validity members = (⊥, ⊥) := by
  rcases foldl_cases members (⊥, ⊤) bot_le with ⟨h1, -⟩ | ⟨h1, h2, -, -⟩
  · exact h1
  · exact absurd ⟨(validity members).1, fun m hm =>
      ⟨(h2 m (by simp [hm])).1, h1.2.trans (h2 m (by simp [hm])).2⟩⟩ h

/-- **C40**.  The order of the members does not matter. -/
theorem C40_order (l₁ l₂ : List (T × T)) (h : l₁.Perm l₂) : validity l₁ = validity l₂ := by
  by_cases hc : ∃ t, ∀ m ∈ l₁, Within t m
  · have hc2 : ∃ t, ∀ m ∈ l₂, Within t m := by
      obtain ⟨t, ht⟩ := hc
      exact ⟨t, fun m hm => ht m (h.mem_iff.mpr hm)⟩
    obtain ⟨-, a1, a2, a3⟩ := C40_bounds l₁ hc
    obtain ⟨-, b1, b2, b3⟩ := C40_bounds l₂ hc2
    refine Prod.ext (le_antisymm ?_ ?_) (le_antisymm ?_ ?_)
    · rcases a2 with e | ⟨m, hm, e⟩
      · rw [e]; exact bot_le
      · rw [← e]; exact (b1 m (h.mem_iff.mp hm)).1
    · rcases b2 with e | ⟨m, hm, e⟩
      · rw [e]; exact bot_le
      · rw [← e]; exact (a1 m (h.mem_iff.mpr hm)).1
    · rcases b3 with e | ⟨m, hm, e⟩
      · rw [e]; exact le_top
      · rw [← e]; exact (a1 m (h.mem_iff.mpr hm)).2
    · rcases a3 with e | ⟨m, hm, e⟩
      · rw [e]; exact le_top
      · rw [← e]; exact (b1 m (h.mem_iff.mp hm)).2
  · rw [C40_empty _ hc, C40_empty]
    rintro ⟨t, ht⟩
    exact hc ⟨t, fun m hm => ht m (h.mem_iff.mp hm)⟩

/-- **C40** for the MIO primary field: the intersection of the two parts. -/
theorem C40_mio (above below : T × T) (t : T) :
    Within t (mioValidity above below) ↔ Within t above ∧ Within t below := by
  unfold mioValidity Within
  simp only [max_le_iff, le_min_iff]
  tauto

-- three members with a common time, three without, in another order
example : (∀ m ∈ [((1 : Fin 9), (5 : Fin 9)), (3, 8), (0, 4)], Within (4 : Fin 9) m) ∧
    (⊥ : Fin 9) < 4 ∧ validity [((1 : Fin 9), (5 : Fin 9)), (3, 8), (0, 4)] = (3, 4) ∧
    validity [((6 : Fin 9), (8 : Fin 9)), (0, 4), (0, 8)] = (0, 0) ∧
    validity [((0 : Fin 9), (8 : Fin 9)), (0, 4), (6, 8)] = (0, 0) := by
  unfold Within; decide

end validity

/-! ### C39 -/

/-- Sum of vectors, NaN if one of them is NaN. -/
noncomputable def total (l : List (Option (V3 ℝ))) : Option (V3 ℝ) :=
  if none ∈ l then none
  else some ⟨(l.map (fun v => (v.getD ⟨0, 0, 0⟩).x)).sum, (l.map (fun v => (v.getD ⟨0, 0, 0⟩).y)).sum,
    (l.map (fun v => (v.getD ⟨0, 0, 0⟩).z)).sum⟩

theorem total_nil : total [] = some ⟨0, 0, 0⟩ := by simp [total]

theorem total_append (a b : List (Option (V3 ℝ))) : total (a ++ b) = addRes (total a) (total b) := by
  unfold total addRes
  by_cases ha : none ∈ a <;> by_cases hb : none ∈ b <;> simp [ha, hb, vplus]

theorem total_one (a : Option (V3 ℝ)) : total [a] = a := by
  cases a <;> simp [total]

theorem addRes_assoc (a b c : Option (V3 ℝ)) : addRes (addRes a b) c = addRes a (addRes b c) := by
  cases a <;> cases b <;> cases c <;> simp [addRes, vplus, add_assoc]

theorem addRes_zero (a : Option (V3 ℝ)) : addRes a (some ⟨0, 0, 0⟩) = a := by
  cases a <;> simp [addRes, vplus]

/-- Linear maps of vectors. -/
structure Lin (f : V3 ℝ → V3 ℝ) : Prop where
  zero : f ⟨0, 0, 0⟩ = ⟨0, 0, 0⟩
  add : ∀ a b, f (vplus a b) = vplus (f a) (f b)
  smul : ∀ c a, f (vsmul c a) = vsmul c (f a)

theorem lin_cmul (s : V3 ℝ) : Lin (cmul s) := by
  constructor
  · simp [cmul]
  · intro a b; simp only [cmul, vplus]; refine V3.ext' ?_ ?_ ?_ <;> ring
  · intro c a; simp only [cmul, vsmul]; refine V3.ext' ?_ ?_ ?_ <;> ring

theorem lin_rotate (i o : CT) (loc sph : V3 ℝ) : Lin (rotateOut libm i o loc sph) := by
  unfold rotateOut
  cases o
  · refine ⟨?_, ?_, ?_⟩
    · simp [vrotSph2geod, rot2d]
    · intro a b; simp only [vrotSph2geod, rot2d, vplus]; refine V3.ext' ?_ ?_ ?_ <;> dsimp only <;> ring
    · intro c a; simp only [vrotSph2geod, rot2d, vsmul]; refine V3.ext' ?_ ?_ ?_ <;> dsimp only <;> ring
  · exact ⟨rfl, fun _ _ => rfl, fun _ _ => rfl⟩
  · refine ⟨?_, ?_, ?_⟩
    · simp [vrotSph2cart, rot2d]
    · intro a b; simp only [vrotSph2cart, rot2d, vplus]; refine V3.ext' ?_ ?_ ?_ <;> dsimp only <;> ring
    · intro c a; simp only [vrotSph2cart, rot2d, vsmul]; refine V3.ext' ?_ ?_ ?_ <;> dsimp only <;> ring

theorem Lin.addRes {f : V3 ℝ → V3 ℝ} (h : Lin f) (a b : Option (V3 ℝ)) :
    (addRes a b).map f = addRes (a.map f) (b.map f) := by
  cases a <;> cases b <;> simp [ComposedModel.addRes, h.add]

theorem Lin.total {f : V3 ℝ → V3 ℝ} (h : Lin f) : ∀ l : List (Option (V3 ℝ)),
    (total l).map f = Props.total (l.map (fun v => v.map f))
  | [] => by simp [total_nil, h.zero]
  | a :: l => by
    rw [← List.singleton_append, total_append, h.addRes, h.total l, List.map_append, total_append,
      total_one, List.map_singleton, total_one]

section eval
variable {T V : Type} (isnan : T → Bool)

theorem evalRest_eq : ∀ (l : List (Node ℝ T V × V3 ℝ × Opts V)) (t : T) (c : V3 ℝ) (opts : Opts V)
    (r : Option (V3 ℝ)), evalRest libm isnan l t c opts r =
      (l.mapM (fun q => evalNode libm isnan q.1 t c .spherical .spherical (some q.2.1)
        (opts.update q.2.2))).map (fun rs => addRes r (total rs))
  | [], t, c, opts, r => by
    rw [evalRest]
    simp [total_nil, addRes_zero]
  | (m, s, p) :: l, t, c, opts, r => by
    rw [evalRest, List.mapM_cons]
    cases evalNode libm isnan m t c .spherical .spherical (some s) (opts.update p) with
    | none => rfl
    | some a =>
      simp only [Option.bind_eq_bind, Option.bind_some]
      rw [evalRest_eq l]
      cases l.mapM (fun q => evalNode libm isnan q.1 t c .spherical .spherical (some q.2.1)
        (opts.update q.2.2)) with
      | none => rfl
      | some rs =>
        simp only [Option.map_some, Option.bind_some, Option.pure_def, addRes_assoc]
        rw [← List.singleton_append, total_append, total_one]

theorem evalItems_eq (l : List (Node ℝ T V × V3 ℝ × Opts V)) (t : T) (c : V3 ℝ) (opts : Opts V)
    (h : l ≠ [] ∨ isnan t = false) : evalItems libm isnan l t c opts =
      (l.mapM (fun q => evalNode libm isnan q.1 t c .spherical .spherical (some q.2.1)
        (opts.update q.2.2))).map total := by
  cases l with
  | nil =>
    rw [evalItems]
    have := h.resolve_left (by simp)
    simp [this, total_nil]
  | cons q l =>
    obtain ⟨m, s, p⟩ := q
    rw [evalItems, List.mapM_cons]
    cases evalNode libm isnan m t c .spherical .spherical (some s) (opts.update p) with
    | none => rfl
    | some a =>
      simp only [Option.bind_eq_bind, Option.bind_some]
      rw [evalRest_eq]
      cases l.mapM (fun q => evalNode libm isnan q.1 t c .spherical .spherical (some q.2.1)
        (opts.update q.2.2)) with
      | none => rfl
      | some rs =>
        simp only [Option.map_some, Option.bind_some, Option.pure_def]
        rw [← List.singleton_append, total_append, total_one]

/-- **C39**, an empty model: zero, in each coordinate system and for each scale; NaN for a
NaN time. -/
theorem C39_empty (t : T) (loc : V3 ℝ) (i o : CT) (scale : Option (V3 ℝ)) (opts : Opts V) :
    evalNode libm isnan (.composed []) t loc i o scale opts =
      some (if isnan t then none else some ⟨0, 0, 0⟩) := by
  rw [evalNode]
  simp only [evalItems, Option.bind_eq_bind, Option.bind_some, Option.pure_def]
  cases isnan t
  · simp only [Bool.false_eq_true, if_false, finishOut]
    cases scale <;> simp [(lin_rotate i o _ _).zero, (lin_cmul _).zero]
  · simp only [if_true, finishOut]
    cases scale <;> rfl

/-- **C39**, options: the parameters of the member override the options of the call, other
options are passed. -/
theorem C39_options (options params : Opts V) (k : String) :
    (∀ v, params k = some v → options.update params k = some v) ∧
    (params k = none → options.update params k = options k) := by
  unfold Opts.update
  constructor
  · intro v h; rw [h]
  · intro h; rw [h]

/-- **C39**, a NaN of one member gives NaN. -/
theorem C39_nan (items : List (Node ℝ T V × V3 ℝ × Opts V)) (q : Node ℝ T V × V3 ℝ × Opts V)
    (hq : q ∈ items) (t : T) (loc : V3 ℝ) (i o : CT) (scale : Option (V3 ℝ)) (opts : Opts V)
    (r : Option (V3 ℝ)) (hr : evalNode libm isnan (.composed items) t loc i o scale opts = some r)
    (hn : evalNode libm isnan q.1 t (getFconv libm i .spherical loc) .spherical .spherical (some q.2.1)
      (opts.update q.2.2) = some none) : r = none := by
  rw [evalNode] at hr
  simp only [evalItems_eq isnan items t _ opts (.inl (List.ne_nil_of_mem hq)), Option.bind_eq_bind,
    Option.bind_eq_some_iff, Option.map_eq_some_iff, Option.pure_def, Option.some.injEq] at hr
  obtain ⟨_, ⟨rs, hrs, rfl⟩, rfl⟩ := hr
  have : none ∈ rs := by
    obtain ⟨k, hk, rfl⟩ := List.getElem_of_mem hq
    have h := Arr.mapM_get hrs k
    rw [List.getElem?_eq_getElem hk, Option.bind_some, hn] at h
    exact List.mem_of_getElem? h.symm
  have ht : total rs = none := by unfold total; rw [if_pos this]
  unfold finishOut
  rw [ht]
  cases scale <;> rfl

/-! #### Sum over all members of nested composed models -/

/-- The three components have the same scale. -/
def scalar (c : ℝ) : V3 ℝ := ⟨c, c, c⟩

/-- The option `scale` multiplies the components of the result. -/
def Scales (ev : Eval ℝ T V) : Prop := ∀ t loc i o scale opts,
  ev t loc i o scale opts = (ev t loc i o none opts).map (fun r => r.map (cmul (scale.getD (scalar 1))))

/-- At the location the result in the output system is the rotated result of the
evaluation in the spherical coordinates. -/
def Frames (ev : Eval ℝ T V) (i : CT) (loc : V3 ℝ) : Prop := ∀ t o opts,
  ev t loc i o none opts =
    (ev t (getFconv libm i .spherical loc) .spherical .spherical none opts).map
      (fun r => r.map (rotateOut libm i o loc (getFconv libm i .spherical loc)))

mutual
/-- A property holds for all simple models inside of the model, and all scales of the
composed models are single numbers. -/
def All (P : Eval ℝ T V → Prop) : Node ℝ T V → Prop
  | .leaf ev => P ev
  | .composed items => AllItems P items

def AllItems (P : Eval ℝ T V → Prop) : List (Node ℝ T V × V3 ℝ × Opts V) → Prop
  | [] => True
  | (m, s, _) :: rest => All P m ∧ (∃ c, s = scalar c) ∧ AllItems P rest
end

mutual
/-- The simple models inside of the model, each with the product of the scales on the way
to it and its options (the inner parameters override the outer ones). -/
noncomputable def flat : Node ℝ T V → Opts V → List (Eval ℝ T V × ℝ × Opts V)
  | .leaf ev, opts => [(ev, 1, opts)]
  | .composed items, opts => flatItems items opts

noncomputable def flatItems : List (Node ℝ T V × V3 ℝ × Opts V) → Opts V → List (Eval ℝ T V × ℝ × Opts V)
  | [], _ => []
  | (m, s, p) :: rest, opts =>
    (flat m (opts.update p)).map (fun q => (q.1, s.x * q.2.1, q.2.2)) ++ flatItems rest opts
end

/-- Sum of the evaluations of simple models with weights. -/
noncomputable def weighted (l : List (Eval ℝ T V × ℝ × Opts V)) (t : T) (loc : V3 ℝ) (i o : CT) :
    Option (Option (V3 ℝ)) :=
  (l.mapM (fun q : Eval ℝ T V × ℝ × Opts V =>
    (q.1 t loc i o none q.2.2).map (fun r => r.map (vsmul q.2.1)))).map total

theorem weighted_append (a b : List (Eval ℝ T V × ℝ × Opts V)) (t : T) (loc : V3 ℝ) (i o : CT) :
    weighted (a ++ b) t loc i o =
      (weighted a t loc i o).bind (fun x => (weighted b t loc i o).map (fun y => addRes x y)) := by
  unfold weighted
  rw [List.mapM_append]
  cases a.mapM (fun q : Eval ℝ T V × ℝ × Opts V => (q.1 t loc i o none q.2.2).map (fun r => r.map (vsmul q.2.1))) with
  | none => rfl
  | some x =>
    cases b.mapM (fun q : Eval ℝ T V × ℝ × Opts V => (q.1 t loc i o none q.2.2).map (fun r => r.map (vsmul q.2.1))) with
    | none => rfl
    | some y => simp [total_append]

theorem weighted_cons (q : Eval ℝ T V × ℝ × Opts V) (b : List (Eval ℝ T V × ℝ × Opts V)) (t : T) (loc : V3 ℝ)
    (i o : CT) : weighted (q :: b) t loc i o =
      (weighted [q] t loc i o).bind (fun x => (weighted b t loc i o).map (fun y => addRes x y)) :=
  weighted_append [q] b t loc i o

theorem vsmul_one (v : V3 ℝ) : vsmul 1 v = v := V3.ext' (one_mul _) (one_mul _) (one_mul _)

theorem vsmul_mul (a b : ℝ) (v : V3 ℝ) : vsmul a (vsmul b v) = vsmul (a * b) v :=
  V3.ext' (mul_assoc _ _ _).symm (mul_assoc _ _ _).symm (mul_assoc _ _ _).symm

theorem cmul_scalar (c : ℝ) (v : V3 ℝ) : cmul (scalar c) v = vsmul c v :=
  V3.ext' (mul_comm _ _) (mul_comm _ _) (mul_comm _ _)

theorem weighted_map (f : V3 ℝ → V3 ℝ) (hf : Lin f) : ∀ (l : List (Eval ℝ T V × ℝ × Opts V)) (t : T)
    (loc loc' : V3 ℝ) (i o i' o' : CT),
    (∀ q ∈ l, q.1 t loc' i' o' none q.2.2 = (q.1 t loc i o none q.2.2).map (fun r => r.map f)) →
    weighted l t loc' i' o' = (weighted l t loc i o).map (fun r => r.map f)
  | [], t, loc, loc', i, o, i', o', _ => by simp [weighted, total_nil, hf.zero]
  | q :: l, t, loc, loc', i, o, i', o', h => by
    have ih := weighted_map f hf l t loc loc' i o i' o' (fun x hx => h x (by simp [hx]))
    rw [weighted_cons q l t loc', weighted_cons q l t loc, ih]
    have e : weighted [q] t loc' i' o' = (weighted [q] t loc i o).map (fun r => r.map f) := by
      unfold weighted
      simp only [List.mapM_cons, List.mapM_nil]
      rw [h q (by simp)]
      cases q.1 t loc i o none q.2.2 with
      | none => rfl
      | some r => cases r <;> simp [total_one, hf.smul]
    rw [e]
    cases weighted [q] t loc i o with
    | none => rfl
    | some x => cases weighted l t loc i o <;> simp [hf.addRes]

theorem weighted_scale (c : ℝ) : ∀ (l : List (Eval ℝ T V × ℝ × Opts V)) (t : T) (loc : V3 ℝ) (i o : CT),
    weighted (l.map (fun q => (q.1, c * q.2.1, q.2.2))) t loc i o =
      (weighted l t loc i o).map (fun r => r.map (vsmul c))
  | [], t, loc, i, o => by simp [weighted, total_nil, vsmul]
  | q :: l, t, loc, i, o => by
    have ih := weighted_scale c l t loc i o
    rw [List.map_cons, weighted_cons, weighted_cons q, ih]
    have e : weighted [(q.1, c * q.2.1, q.2.2)] t loc i o = (weighted [q] t loc i o).map (fun r => r.map (vsmul c)) := by
      unfold weighted
      simp only [List.mapM_cons, List.mapM_nil]
      cases q.1 t loc i o none q.2.2 with
      | none => rfl
      | some r => cases r <;> simp [total_one, vsmul_mul]
    rw [e]
    have hc : Lin (vsmul c) := by
      have := lin_cmul (scalar c)
      rwa [show cmul (scalar c) = vsmul c from funext (cmul_scalar c)] at this
    cases weighted [q] t loc i o with
    | none => rfl
    | some x => cases weighted l t loc i o <;> simp [hc.addRes]

mutual
theorem node_flat : ∀ (n : Node ℝ T V), All Scales n → ∀ (t : T) (c : V3 ℝ) (scale : Option (V3 ℝ))
    (opts : Opts V), isnan t = false → evalNode libm isnan n t c .spherical .spherical scale opts =
      (weighted (flat n opts) t c .spherical .spherical).map
        (fun r => r.map (cmul (scale.getD (scalar 1))))
  | .leaf ev, h, t, c, scale, opts, ht => by
    rw [All] at h
    rw [evalNode, h, flat]
    unfold weighted
    simp only [List.mapM_cons, List.mapM_nil]
    cases ev t c .spherical .spherical none opts with
    | none => rfl
    | some r => cases r <;> simp [total_one, vsmul_one]
  | .composed items, h, t, c, scale, opts, ht => by
    rw [All] at h
    rw [evalNode, flat]
    have e := items_flat items h t c opts ht
    have hc : getFconv libm .spherical .spherical c = c := rfl
    simp only [hc, e, Option.bind_eq_bind, Option.pure_def]
    cases weighted (flatItems items opts) t c .spherical .spherical with
    | none => rfl
    | some r =>
      cases r with
      | none => cases scale <;> rfl
      | some r =>
        cases scale with
        | none => simp [finishOut, rotateOut, cmul_scalar, vsmul_one]
        | some f => rfl

theorem items_flat : ∀ (l : List (Node ℝ T V × V3 ℝ × Opts V)), AllItems Scales l → ∀ (t : T) (c : V3 ℝ)
    (opts : Opts V), isnan t = false → evalItems libm isnan l t c opts =
      weighted (flatItems l opts) t c .spherical .spherical
  | [], h, t, c, opts, ht => by
    rw [evalItems, flatItems]
    simp [ht, weighted, total_nil]
  | (m, s, p) :: l, h, t, c, opts, ht => by
    rw [AllItems] at h
    obtain ⟨h1, ⟨k, rfl⟩, h3⟩ := h
    have e1 := node_flat m h1 t c (some (scalar k)) (opts.update p) ht
    have e2 := items_flat l h3 t c opts ht
    rw [flatItems, weighted_append, ← e2, show (scalar k).x = k from rfl, weighted_scale,
      evalItems_eq isnan _ t c opts (.inr ht), evalItems_eq isnan _ t c opts (.inr ht), List.mapM_cons]
    simp only [e1, Option.getD_some, show cmul (scalar k) = vsmul k from funext (cmul_scalar k)]
    cases weighted (flat m (opts.update p)) t c .spherical .spherical with
    | none => rfl
    | some a =>
      cases l.mapM (fun q => evalNode libm isnan q.1 t c .spherical .spherical (some q.2.1)
        (opts.update q.2.2)) with
      | none => rfl
      | some rs =>
        simp only [Option.map_some, Option.bind_some, Option.pure_def, Option.bind_eq_bind]
        rw [← List.singleton_append, total_append, total_one]
end

/-- **C39**.  The evaluation of a composed model, nested to any depth, in any coordinate
systems: the sum of the evaluations of all the simple models with the same arguments, each
multiplied by the product of the scales on the way to it, and the sum multiplied by the
scale of the call.  The simple models scale and rotate their results as claimed by
`Scales` and `Frames` (shown below for the spherical harmonic models). -/
theorem C39_sum (items : List (Node ℝ T V × V3 ℝ × Opts V)) (hs : AllItems Scales items) (t : T)
    (ht : isnan t = false) (loc : V3 ℝ) (i o : CT) (scale : Option (V3 ℝ)) (opts : Opts V)
    (hf : ∀ q ∈ flatItems items opts, Frames q.1 i loc) :
    evalNode libm isnan (.composed items) t loc i o scale opts =
      (weighted (flatItems items opts) t loc i o).map (fun r => r.map (cmul (scale.getD (scalar 1)))) := by
  rw [evalNode, weighted_map _ (lin_rotate i o loc (getFconv libm i .spherical loc)) _ t
    (getFconv libm i .spherical loc) loc .spherical .spherical i o (fun q hq => hf q hq t o q.2.2)]
  simp only [items_flat isnan items hs t _ opts ht, Option.bind_eq_bind, Option.pure_def]
  cases weighted (flatItems items opts) t (getFconv libm i .spherical loc) .spherical .spherical with
  | none => rfl
  | some r =>
    cases scale with
    | none =>
      have : cmul (scalar 1) = id := by funext v; rw [cmul_scalar, vsmul_one]; rfl
      simp [finishOut, this]
    | some f => simp [finishOut]

end eval

/-! #### Spherical harmonic models as members -/

section leaves
variable {T V : Type}

/-- Evaluation of a spherical harmonic model at one time with real numbers. -/
noncomputable def shModel (mem : Nat → Mem ℝ) (c : Coeffs ℝ T V) : Eval ℝ T V :=
  evalSingleTime libm nearPole (10 ^ 280) mem c

theorem shModel_eq (mem : Nat → Mem ℝ) (c : Coeffs ℝ T V) (t : T) (loc : V3 ℝ) (i o : CT)
    (scale : Option (V3 ℝ)) (opts : Opts V) : shModel mem c t loc i o scale opts =
      (c.call t opts).bind (fun r =>
        ((shevalR c.isInternal r.2 i o 2 1 ⟨-(scale.getD (scalar 1)).x, -(scale.getD (scalar 1)).y,
          -(scale.getD (scalar 1)).z⟩ (mem r.2) [(loc, r.1)]).bind List.head?).bind (fun u => u.2.map some)) := by
  unfold shModel evalSingleTime shevalR batchR
  cases c.call t opts with
  | none => rfl
  | some r =>
    simp only [Option.bind_eq_bind, Option.bind_some, scalar]
    cases batch libm nearPole (10 ^ 280) (config c.isInternal r.2 i o 1 ⟨-(scale.getD ⟨1, 1, 1⟩).x,
      -(scale.getD ⟨1, 1, 1⟩).y, -(scale.getD ⟨1, 1, 1⟩).z⟩) 2 (init (mem r.2)) [(loc, r.1)] with
    | none => rfl
    | some l =>
      cases l with
      | nil => rfl
      | cons u l => cases h : u.2 <;> simp [h]

/-- One point from fresh buffers. -/
theorem sheval_single (int : Bool) (N : Nat) (i o : CT) (mode : Nat) (sp : ℝ) (sg : V3 ℝ) (b : Mem ℝ)
    (v : V3 ℝ) (coef : List (ℝ × ℝ)) :
    (shevalR int N i o mode sp sg b [(v, coef)]).bind List.head? =
      fresh (config int N i o sp sg) mode b v coef := by
  have h : ∀ x : Option (State ℝ × FullEval.Out ℝ), (x.bind (fun r => (some []).bind
      (fun os : List (FullEval.Out ℝ) => some (r.2 :: os)))).bind List.head? = x.map Prod.snd := by
    intro x; cases x <;> rfl
  unfold shevalR batchR fresh
  refine (h (modelEval libm nearPole (10 ^ 280) (config int N i o sp sg) mode (init b) v coef)).trans ?_
  unfold modelEval pointR point
  simp only [init, ne_eq, reduceCtorEq, not_false_eq_true, if_true, Option.bind_eq_bind, Option.pure_def,
    Option.map_bind, Function.comp_def, Option.map_some, Option.bind_assoc, Option.bind_fun_some]
  rfl

theorem project_rotate (int : Bool) (N : Nat) (i o : CT) (sp : ℝ) (sg v : V3 ℝ) (g : Grad ℝ) :
    project libm (config int N i o sp sg) (position libm (config int N i o sp sg) v) g =
      some (rotateOut libm i o v (getFconv libm i .spherical v) ⟨g.el, g.az, g.rd⟩) := by
  have hs := position_sph int N i o sp sg v
  cases o
  · have hg : (position libm (config int N i .geodetic sp sg) v).2 =
        some (coordOut libm i v (getFconv libm i .spherical v)).x := by
      cases i
      · rfl
      · rfl
      · show some (sph2geodetic libm _ _ _ _ _).x = some (sph2geodetic libm _ (dg2rad libm * (_ * rad2dg libm))
          (dg2rad libm * (_ * rad2dg libm)) _ _).x
        rw [rad_deg', rad_deg']
        rfl
    unfold project
    simp only [config] at hg hs ⊢
    rw [hg, hs]
    simp only [rotateOut, vrotSph2geod, Option.bind_eq_bind, Option.bind_some, Option.pure_def]
    generalize (coordOut libm i v (getFconv libm i .spherical v)).x = G
    have : dg2rad libm * (getFconv libm i .spherical v).x - dg2rad libm * G =
      -dg2rad libm * (G - (getFconv libm i .spherical v).x) := by ring
    rw [this]
  · rfl
  · unfold project
    simp only [config] at hs ⊢
    rw [hs]
    rfl

/-- The spherical harmonic models scale and rotate their results, at every location. -/
theorem shModel_scales (mem : Nat → Mem ℝ) (c : Coeffs ℝ T V) : Scales (shModel mem c) := by
  intro t loc i o scale opts
  rw [shModel_eq, shModel_eq]
  cases c.call t opts with
  | none => rfl
  | some r =>
    simp only [Option.bind_some, sheval_single, fresh_eq]
    cases pointR 6371.2 r.2 2 c.isInternal (mem r.2) (dg2rad libm * (getFconv libm i .spherical loc).x)
        (dg2rad libm * (getFconv libm i .spherical loc).y) (getFconv libm i .spherical loc).z r.1 with
    | none => rfl
    | some u =>
      obtain ⟨p, g⟩ := u
      cases g with
      | none => rfl
      | some g =>
        simp only [Option.bind_some, finish, project_rotate, Option.bind_eq_bind, Option.pure_def,
          Option.map_some]
        simp only [config, cmul, scalar, Option.getD_none, mul_one, mul_neg, neg_mul]

theorem shModel_frames (mem : Nat → Mem ℝ) (c : Coeffs ℝ T V) (i : CT) (loc : V3 ℝ) :
    Frames (shModel mem c) i loc := by
  intro t o opts
  rw [shModel_eq, shModel_eq]
  cases c.call t opts with
  | none => rfl
  | some r =>
    simp only [Option.bind_some, sheval_single, fresh_eq]
    rw [show getFconv libm .spherical .spherical (getFconv libm i .spherical loc) =
      getFconv libm i .spherical loc from rfl]
    cases pointR 6371.2 r.2 2 c.isInternal (mem r.2) (dg2rad libm * (getFconv libm i .spherical loc).x)
        (dg2rad libm * (getFconv libm i .spherical loc).y) (getFconv libm i .spherical loc).z r.1 with
    | none => rfl
    | some u =>
      obtain ⟨p, g⟩ := u
      cases g with
      | none => rfl
      | some g =>
        simp only [Option.bind_some, finish, project_rotate, Option.bind_eq_bind, Option.pure_def,
          Option.map_some]
        simp only [config, scalar, Option.getD_none]
        have hl := lin_rotate i o loc (getFconv libm i .spherical loc)
        have h := hl.smul (-1) ⟨g.el, g.az, g.rd⟩
        have e : ∀ w : V3 ℝ, (⟨w.x * -1, w.y * -1, w.z * -1⟩ : V3 ℝ) = vsmul (-1) w :=
          fun w => V3.ext' (mul_comm _ _) (mul_comm _ _) (mul_comm _ _)
        rw [e, ← h]
        congr 3
        rw [← e]
        rfl

/-- Rotation from the spherical to the geodetic frame, through the Cartesian frame. -/
theorem sph2geod_cart (w : V3 ℝ) (a b l : ℝ) :
    vrotSph2geod libm (vrotCart2sph libm w a l) (b - a) = vrotCart2sph libm w b l := by
  have h := C33_coherent .spherical .geodetic .cartesian (fun ct => match ct with
    | .geodetic => ⟨b, l, 0⟩
    | _ => ⟨a, l, 0⟩) (vrotCart2sph libm w a l) rfl
  simp only [vrotate, code] at h
  norm_num at h
  rw [(C33_inverse w a l).2] at h
  rw [← (C33_inverse (vrotSph2geod libm (vrotCart2sph libm w a l) (b - a)) b l).1, h]

/-- A spherical harmonic model in the dipole coordinates, around any evaluation method. -/
noncomputable def dipoleModel (latN lonN : ℝ) (method : Eval ℝ T V) : Eval ℝ T V :=
  evalDipole libm code latN lonN method

theorem dipole_scales (latN lonN : ℝ) (method : Eval ℝ T V) : Scales (dipoleModel latN lonN method) := by
  intro t loc i o scale opts
  unfold dipoleModel evalDipole
  simp only [Option.bind_eq_bind, Option.pure_def]
  cases convertToDipole libm loc latN lonN (code i) with
  | none => rfl
  | some d =>
    simp only [Option.bind_some]
    cases method t d .spherical .spherical none opts with
    | none => rfl
    | some r =>
      cases r with
      | none => rfl
      | some r =>
        simp only [Option.bind_some]
        cases rotateVectorsFromDipole libm r latN lonN d loc (code i) (code o) with
        | none => rfl
        | some w =>
          cases scale with
          | none => simp [cmul_scalar, vsmul_one]
          | some f => rfl

theorem dipole_frames (latN lonN : ℝ) (method : Eval ℝ T V) (i : CT) (loc : V3 ℝ) (h : Valid i loc) :
    Frames (dipoleModel latN lonN method) i loc := by
  intro t o opts
  have hconv : ∀ k, getFconv libm .spherical k (getFconv libm i .spherical loc) = getFconv libm i k loc := by
    intro k
    have := C32_coherent i .spherical k loc h
    rw [convert_code, convert_code, Option.bind_some, convert_code, Option.some.injEq] at this
    exact this
  have hd : convertToDipole libm loc latN lonN (code i) =
      convertToDipole libm (getFconv libm i .spherical loc) latN lonN (code .spherical) := by
    unfold convertToDipole
    have e1 := convert_code i .cartesian loc
    have e2 := convert_code .spherical .cartesian (getFconv libm i .spherical loc)
    rw [hconv] at e2
    simp only [code] at e1 e2 ⊢
    rw [e1, e2]
  have hrot : ∀ r d : V3 ℝ, rotateVectorsFromDipole libm r latN lonN d loc (code i) (code o) =
      (rotateVectorsFromDipole libm r latN lonN d (getFconv libm i .spherical loc) (code .spherical)
        (code .spherical)).map (rotateOut libm i o loc (getFconv libm i .spherical loc)) := by
    intro r d
    set w := dot (vrotSph2cart libm r d.x d.y) (dipoleMatrix libm latN lonN).transpose with hw
    have hr : rotateVectorsFromDipole libm r latN lonN d (getFconv libm i .spherical loc) (code .spherical)
        (code .spherical) = some (vrotCart2sph libm w (getFconv libm i .spherical loc).x
          (getFconv libm i .spherical loc).y) := rfl
    rw [hr, Option.map_some]
    cases o
    · have e : rotateVectorsFromDipole libm r latN lonN d loc (code i) (code .geodetic) =
          some (vrotCart2sph libm w (getFconv libm i .geodetic loc).x (getFconv libm i .geodetic loc).y) := by
        unfold rotateVectorsFromDipole
        rw [if_neg (by decide), convert_code]
        rfl
      have hc : (coordOut libm i loc (getFconv libm i .spherical loc)).x = (getFconv libm i .geodetic loc).x := by
        cases i
        · rfl
        · rfl
        · exact congrArg V3.x (hconv .geodetic)
      rw [e]
      simp only [rotateOut, hc, sph2geod_cart, geod_lon]
    · have e : rotateVectorsFromDipole libm r latN lonN d loc (code i) (code .spherical) =
          some (vrotCart2sph libm w (getFconv libm i .spherical loc).x (getFconv libm i .spherical loc).y) := by
        unfold rotateVectorsFromDipole
        rw [if_neg (by decide), convert_code]
        rfl
      rw [e]
      rfl
    · have e : rotateVectorsFromDipole libm r latN lonN d loc (code i) (code .cartesian) = some w := by
        unfold rotateVectorsFromDipole
        rw [if_pos (by decide)]
        rfl
      rw [e]
      simp only [rotateOut, (C33_inverse _ _ _).2]
  unfold dipoleModel evalDipole
  simp only [Option.bind_eq_bind, Option.pure_def]
  rw [hd]
  cases convertToDipole libm (getFconv libm i .spherical loc) latN lonN (code .spherical) with
  | none => rfl
  | some d =>
    simp only [Option.bind_some]
    cases method t d .spherical .spherical none opts with
    | none => rfl
    | some r =>
      cases r with
      | none => rfl
      | some r =>
        simp only [Option.bind_some, hrot]
        cases rotateVectorsFromDipole libm r latN lonN d (getFconv libm i .spherical loc) (code .spherical)
          (code .spherical) <;> rfl

theorem model_scales [LinearOrder T] (method : Coeffs ℝ T V → Eval ℝ T V) (h : ∀ c, Scales (method c)) :
    ∀ comps, Scales (evalModel method comps)
  | [] => fun _ _ _ _ _ _ => rfl
  | c :: rest => by
    intro t loc i o scale opts
    simp only [evalModel]
    split
    · exact h c t loc i o scale opts
    · exact model_scales method h rest t loc i o scale opts

theorem model_frames [LinearOrder T] (method : Coeffs ℝ T V → Eval ℝ T V) (i : CT) (loc : V3 ℝ)
    (h : ∀ c, Frames (method c) i loc) : ∀ comps, Frames (evalModel method comps) i loc
  | [] => fun _ _ _ => rfl
  | c :: rest => by
    intro t o opts
    simp only [evalModel]
    split
    · exact h c t o opts
    · exact model_frames method i loc h rest t o opts

/-- The models of the package which are not composed: spherical harmonic models in the
geographic or in dipole coordinates, with any number of validity intervals. -/
inductive Simple [LinearOrder T] : Eval ℝ T V → Prop
  | sh (mem : Nat → Mem ℝ) (comps : List (Coeffs ℝ T V)) : Simple (evalModel (shModel mem) comps)
  | dipole (mem : Nat → Mem ℝ) (latN lonN : ℝ) (comps : List (Coeffs ℝ T V)) :
    Simple (evalModel (fun c => dipoleModel latN lonN (shModel mem c)) comps)

theorem Simple.scales [LinearOrder T] {ev : Eval ℝ T V} (h : Simple ev) : Scales ev := by
  cases h with
  | sh mem comps => exact model_scales _ (fun c => shModel_scales mem c) comps
  | dipole mem latN lonN comps => exact model_scales _ (fun c => dipole_scales latN lonN _) comps

theorem Simple.frames [LinearOrder T] {ev : Eval ℝ T V} (h : Simple ev) {i : CT} {loc : V3 ℝ}
    (hl : Valid i loc) : Frames ev i loc := by
  cases h with
  | sh mem comps => exact model_frames _ i loc (fun c => shModel_frames mem c i loc) comps
  | dipole mem latN lonN comps => exact model_frames _ i loc (fun c => dipole_frames latN lonN _ i loc hl) comps

mutual
theorem all_mono {P Q : Eval ℝ T V → Prop} (h : ∀ ev, P ev → Q ev) : ∀ n : Node ℝ T V, All P n → All Q n
  | .leaf ev, k => by rw [All] at k ⊢; exact h ev k
  | .composed items, k => by rw [All] at k ⊢; exact allItems_mono h items k

theorem allItems_mono {P Q : Eval ℝ T V → Prop} (h : ∀ ev, P ev → Q ev) :
    ∀ l : List (Node ℝ T V × V3 ℝ × Opts V), AllItems P l → AllItems Q l
  | [], _ => by rw [AllItems]; trivial
  | (m, s, p) :: rest, k => by
    rw [AllItems] at k ⊢
    exact ⟨all_mono h m k.1, k.2.1, allItems_mono h rest k.2.2⟩
end

mutual
theorem flat_mem {P : Eval ℝ T V → Prop} : ∀ (n : Node ℝ T V), All P n → ∀ opts, ∀ q ∈ flat n opts, P q.1
  | .leaf ev, k, opts, q, hq => by
    rw [All] at k
    rw [flat, List.mem_singleton] at hq
    rw [hq]; exact k
  | .composed items, k, opts, q, hq => by
    rw [All] at k
    rw [flat] at hq
    exact flatItems_mem items k opts q hq

theorem flatItems_mem {P : Eval ℝ T V → Prop} : ∀ (l : List (Node ℝ T V × V3 ℝ × Opts V)), AllItems P l →
    ∀ opts, ∀ q ∈ flatItems l opts, P q.1
  | [], _, opts, q, hq => by rw [flatItems] at hq; cases hq
  | (m, s, p) :: rest, k, opts, q, hq => by
    rw [AllItems] at k
    rw [flatItems, List.mem_append, List.mem_map] at hq
    rcases hq with ⟨q', hq', rfl⟩ | hq
    · exact flat_mem m k.1 _ q' hq'
    · exact flatItems_mem rest k.2.2 opts q hq
end

/-- **C39** for the composed models of the package: all members are spherical harmonic
models, in the geographic or in dipole coordinates, or composed models of such models. -/
theorem C39_models [LinearOrder T] (isnan : T → Bool) (items : List (Node ℝ T V × V3 ℝ × Opts V))
    (hs : AllItems Simple items) (t : T) (ht : isnan t = false) (i o : CT) (loc : V3 ℝ) (hl : Valid i loc)
    (scale : Option (V3 ℝ)) (opts : Opts V) :
    evalNode libm isnan (.composed items) t loc i o scale opts =
      (weighted (flatItems items opts) t loc i o).map (fun r => r.map (cmul (scale.getD (scalar 1)))) :=
  C39_sum isnan items (allItems_mono (fun _ h => h.scales) items hs) t ht loc i o scale opts
    (fun q hq => (flatItems_mem items hs opts q hq).frames hl)

/-- **C39**, spelled out for two simple members. -/
theorem C39_two [LinearOrder T] (isnan : T → Bool) (e₁ e₂ : Eval ℝ T V) (h₁ : Simple e₁) (h₂ : Simple e₂)
    (s₁ s₂ f : ℝ) (p₁ p₂ opts : Opts V) (t : T) (ht : isnan t = false) (i o : CT) (loc v₁ v₂ : V3 ℝ)
    (hl : Valid i loc) (r₁ : e₁ t loc i o none (opts.update p₁) = some (some v₁))
    (r₂ : e₂ t loc i o none (opts.update p₂) = some (some v₂)) :
    evalNode libm isnan (.composed [(.leaf e₁, scalar s₁, p₁), (.leaf e₂, scalar s₂, p₂)]) t loc i o
      (some (scalar f)) opts = some (some (vsmul f (vadd (vsmul s₁ v₁) (vsmul s₂ v₂)))) := by
  rw [C39_models isnan _ (by simp only [AllItems, All]; exact ⟨h₁, ⟨_, rfl⟩, h₂, ⟨_, rfl⟩, trivial⟩) t ht i o loc hl]
  simp only [flatItems, flat, List.map_cons, List.map_nil, List.append_nil, List.cons_append, List.nil_append,
    weighted, List.mapM_cons, List.mapM_nil, r₁, r₂, Option.map_some, Option.pure_def, Option.bind_eq_bind,
    Option.bind_some, Option.getD_some, total, scalar, mul_one]
  simp [vadd, vsmul, cmul, mul_comm]

-- a model nested twice, with an option overridden by the inner parameters
example : let e : Eval ℝ ℝ Nat := fun t loc _ _ s o =>
      some (some (cmul (s.getD (scalar 1)) ⟨t, loc.x, ((o "max_degree").getD 0 : ℕ)⟩))
    let inner : Node ℝ ℝ Nat := .composed [(.leaf e, scalar 2, fun k => if k = "max_degree" then some 5 else none),
      (.leaf e, scalar (-1), fun _ => none)]
    flat (.composed [(inner, scalar 3, fun k => if k = "max_degree" then some 7 else none)]) (fun _ => none) =
        [(e, 3 * (2 * 1), fun k => if k = "max_degree" then some 5 else if k = "max_degree" then some 7 else none),
          (e, 3 * (-1 * 1), fun k => if k = "max_degree" then some 7 else none)] ∧
      All Scales inner := by
  constructor
  · simp only [flat, flatItems, List.map_cons, List.map_nil, List.append_nil, List.cons_append, List.nil_append,
      scalar, List.cons.injEq, Prod.mk.injEq, true_and, and_true]
    constructor
    · funext k
      unfold Opts.update
      by_cases h : k = "max_degree" <;> simp [h]
    · funext k
      unfold Opts.update
      by_cases h : k = "max_degree" <;> simp [h]
  · simp only [All, AllItems]
    refine ⟨?_, ⟨_, rfl⟩, ?_, ⟨_, rfl⟩, trivial⟩ <;>
    · intro t loc i o scale opts
      cases scale <;> simp [scalar, cmul]

example : Valid .geodetic ⟨45, -100, 400⟩ := by
  refine ⟨⟨?_, ?_, ?_, ?_⟩, ?_⟩ <;> norm_num [abs_of_pos]

end leaves

/-- **C14** on the models: a model of several sets of coefficients takes for a time the first one
whose validity (with its ends) contains the time, and gives NaN if there is none. -/
theorem C14_model {T V : Type} [LinearOrder T] (method : Coeffs ℝ T V → Eval ℝ T V) (comps : List (Coeffs ℝ T V)) (t : T)
    (loc : V3 ℝ) (i o : CT) (scale : Option (V3 ℝ)) (opts : Opts V) :
    ((∀ c ∈ comps, ¬(c.s ≤ t ∧ t ≤ c.e)) → evalModel method comps t loc i o scale opts = some none) ∧
    ∀ pre c post, comps = pre ++ c :: post → (∀ c' ∈ pre, ¬(c'.s ≤ t ∧ t ≤ c'.e)) → c.s ≤ t → t ≤ c.e →
      evalModel method comps t loc i o scale opts = method c t loc i o scale opts := by
  have step : ∀ (c : Coeffs ℝ T V) rest, ¬(c.s ≤ t ∧ t ≤ c.e) →
      evalModel method (c :: rest) t loc i o scale opts = evalModel method rest t loc i o scale opts := by
    intro c rest h
    rw [evalModel, if_neg (by simpa using h)]
  constructor
  · intro h
    induction comps with
    | nil => rw [evalModel]
    | cons c rest ih =>
      rw [step c rest (h c (by simp))]
      exact ih (fun c' hc => h c' (by simp [hc]))
  · intro pre
    induction pre generalizing comps with
    | nil =>
      rintro c post rfl - h1 h2
      rw [List.nil_append, evalModel, if_pos (by simp [h1, h2])]
    | cons c' pre ih =>
      rintro c post rfl h h1 h2
      rw [List.cons_append, step c' _ (h c' (by simp))]
      exact ih _ c post rfl (fun x hx => h x (by simp [hx])) h1 h2

-- at the common end of two intervals the first one is taken
example : ∃ c₁ c₂ : Coeffs ℝ Int Unit, c₁.s ≤ 5 ∧ 5 ≤ c₁.e ∧ c₂.s ≤ 5 ∧ 5 ≤ c₂.e ∧ c₁.isInternal ≠ c₂.isInternal :=
  ⟨⟨0, 5, true, fun _ _ => none⟩, ⟨5, 9, false, fun _ _ => none⟩, by decide, by decide, by decide, by decide, by decide⟩

end Verif.Props
