import Verif.Model.Objects
import Verif.Props.ComposedField
import Verif.Props.ComposedModel
import Verif.Props.DipoleArrays
import Mathlib.Logic.Relation
import Mathlib.Data.Fintype.Card

/-!
# C89: composed models as objects which refer to one another
-/

namespace Verif.Props

open Verif.Geo Verif.Spec Verif.Arr Verif.Buf Verif.Field Verif.Coeffs Verif.MioField Verif.ComposedField Verif.Objects
open Verif.ComposedModel (validityOverlap)
open Relation

section graph
variable {K T : Type}

/-- The object at `i` has a component which is the object at `j`. -/
def Edge (h : List (Obj K T)) (i j : Nat) : Prop :=
  ∃ ps cs v, h[i]? = some (.composed ps cs v) ∧ ∃ c ∈ cs, c.model = j

/-- The object at `j` is `i`, or a component, or a component of a component, ... -/
def Reaches (h : List (Obj K T)) : Nat → Nat → Prop := ReflTransGen (Edge h)

/-- A model which is not composed is a component at some depth of `i` (or `i` itself). -/
def HasLeaf (h : List (Obj K T)) (i : Nat) (m : Member K) (v : T × T) : Prop := ∃ j, Reaches h i j ∧ h[j]? = some (.base m v)

/-- The tree of models of which the object at `i` consists has at most `n` levels and is `m`. -/
def Unfolds (h : List (Obj K T)) : Nat → Nat → Member K → Prop
  | 0, _, _ => False
  | n + 1, i, m => (∃ v, h[i]? = some (.base m v)) ∨ ∃ ps cs v items, h[i]? = some (.composed ps cs v) ∧ m = .composed items ∧
      List.Forall₂ (fun (c : Objects.Component K) it => Unfolds h n c.model it.1 ∧ it.2 = (c.scale, c.params)) cs items

/-- No object is a component of itself at any depth. -/
def NoCycle (h : List (Obj K T)) : Prop := ∀ i, ¬TransGen (Edge h) i i

/-- All references are to objects. -/
def Closed (h : List (Obj K T)) : Prop := ∀ i j, Edge h i j → j < h.length

end graph

section states
variable {K T : Type} [One K] [LinearOrder T] [BoundedOrder T]

/-- The states reached by constructions and calls of `push` in any order. -/
inductive States : List (Obj K T) → Prop
  | start : States []
  | base {h : List (Obj K T)} (m : Member K) (v : T × T) (hm : ∀ items, m ≠ .composed items) : States h → States (h ++ [.base m v])
  | create {h h' : List (Obj K T)} (models : List Nat) : States h → create h models = .ok h' → States h'
  | push {h h' : List (Obj K T)} (target model : Nat) (scale : Scale K) (params : Args K) : States h →
      push h target model scale params = .ok h' → States h'

/-- The same with `push` only to objects which are not components of others. -/
inductive FinishedStates : List (Obj K T) → Prop
  | start : FinishedStates []
  | base {h : List (Obj K T)} (m : Member K) (v : T × T) (hm : ∀ items, m ≠ .composed items) :
      FinishedStates h → FinishedStates (h ++ [.base m v])
  | create {h h' : List (Obj K T)} (models : List Nat) : FinishedStates h → create h models = .ok h' → FinishedStates h'
  | push {h h' : List (Obj K T)} (target model : Nat) (scale : Scale K) (params : Args K) : FinishedStates h →
      (∀ i, ¬Edge h i target) → model ≠ target → push h target model scale params = .ok h' → FinishedStates h'

theorem finished_states {h : List (Obj K T)} (hs : FinishedStates h) : States h := by
  induction hs with
  | start => exact .start
  | base m v hm _ ih => exact .base m v hm ih
  | create models _ e ih => exact .create models ih e
  | push a b s p _ _ _ e ih => exact .push a b s p ih e

/-! ### One call of `push` -/

theorem push_ok {h h' : List (Obj K T)} {target model : Nat} {scale : Scale K} {params : Args K}
    (e : push h target model scale params = .ok h') : ∃ ps cs v m, h[target]? = some (.composed ps cs v) ∧ h[model]? = some m ∧
      h' = h.set target (.composed (setUpdate ps m.parameters) (cs ++ [⟨model, scale, params⟩]) (validityOverlap v m.validity)) := by
  unfold Objects.push at e
  split at e
  · rename_i ps cs v m h1 h2
    exact ⟨ps, cs, v, m, h1, h2, (Except.ok.inj e).symm⟩
  · simp at e
  · simp at e

theorem push_get {h h' : List (Obj K T)} {target model : Nat} {scale : Scale K} {params : Args K}
    (e : push h target model scale params = .ok h') : h'.length = h.length ∧ (∀ i, i ≠ target → h'[i]? = h[i]?) ∧
      model < h.length ∧ ∃ ps cs v m, h[target]? = some (.composed ps cs v) ∧ h[model]? = some m ∧
      h'[target]? = some (.composed (setUpdate ps m.parameters) (cs ++ [⟨model, scale, params⟩]) (validityOverlap v m.validity)) := by
  obtain ⟨ps, cs, v, m, h1, h2, rfl⟩ := push_ok e
  refine ⟨by simp, fun i hi => ?_, (List.getElem?_eq_some_iff.mp h2).1, ps, cs, v, m, h1, h2, ?_⟩
  · rw [List.getElem?_set_ne (Ne.symm hi)]
  · rw [List.getElem?_set_self (List.getElem?_eq_some_iff.mp h1).1]

theorem push_edge {h h' : List (Obj K T)} {target model : Nat} {scale : Scale K} {params : Args K}
    (e : push h target model scale params = .ok h') (i j : Nat) : Edge h' i j ↔ Edge h i j ∨ (i = target ∧ j = model) := by
  obtain ⟨-, h1, -, ps, cs, v, m, h2, -, h3⟩ := push_get e
  by_cases hi : i = target
  · subst hi
    unfold Edge
    simp only [h2, h3, Option.some.injEq, Obj.composed.injEq]
    constructor
    · rintro ⟨_, _, _, ⟨rfl, rfl, rfl⟩, c, hc, rfl⟩
      rcases List.mem_append.mp hc with hc | hc
      · exact .inl ⟨_, _, _, ⟨rfl, rfl, rfl⟩, c, hc, rfl⟩
      · rw [List.mem_singleton.mp hc]
        exact .inr ⟨trivial, rfl⟩
    · rintro (⟨_, _, _, ⟨rfl, rfl, rfl⟩, c, hc, rfl⟩ | ⟨-, rfl⟩)
      · exact ⟨_, _, _, ⟨rfl, rfl, rfl⟩, c, List.mem_append_left _ hc, rfl⟩
      · exact ⟨_, _, _, ⟨rfl, rfl, rfl⟩, _, List.mem_append_right _ (List.mem_singleton.mpr rfl), rfl⟩
  · unfold Edge
    simp only [h1 i hi, hi, false_and, or_false]

theorem push_reaches {h h' : List (Obj K T)} {target model : Nat} {scale : Scale K} {params : Args K}
    (e : push h target model scale params = .ok h') {i j : Nat} (hr : Reaches h i j) : Reaches h' i j :=
  ReflTransGen.mono (fun a b hab => (push_edge e a b).mpr (.inl hab)) _ _ hr

theorem push_leaf {h h' : List (Obj K T)} {target model : Nat} {scale : Scale K} {params : Args K}
    (e : push h target model scale params = .ok h') (j : Nat) (m : Member K) (v : T × T) :
    h'[j]? = some (.base m v) ↔ h[j]? = some (.base m v) := by
  obtain ⟨-, h1, -, ps, cs, w, m', h2, -, h3⟩ := push_get e
  by_cases hj : j = target
  · subst hj
    simp [h2, h3]
  · rw [h1 j hj]

/-! ### One new object -/

theorem append_get {A : Type} {h : List A} {o x : A} {j : Nat} (e : (h ++ [o])[j]? = some x) : h[j]? = some x ∨ (j = h.length ∧ x = o) := by
  rcases Nat.lt_or_ge j h.length with hi | hi
  · rw [List.getElem?_append_left hi] at e
    exact .inl e
  · rw [List.getElem?_append_right hi] at e
    have h1 := (List.getElem?_eq_some_iff.mp e).1
    simp only [List.length_singleton] at h1
    have h2 : j - h.length = 0 := by omega
    rw [h2] at e
    exact .inr ⟨by omega, (Option.some.inj e).symm⟩

theorem append_edge {h : List (Obj K T)} {o : Obj K T} (ho : ∀ ps cs v, o = .composed ps cs v → cs = []) (i j : Nat) :
    Edge (h ++ [o]) i j ↔ Edge h i j := by
  unfold Edge
  constructor
  · rintro ⟨ps, cs, v, e, c, hc, rfl⟩
    rcases append_get e with e | ⟨-, e⟩
    · exact ⟨ps, cs, v, e, c, hc, rfl⟩
    · rw [ho _ _ _ e.symm] at hc
      simp at hc
  · rintro ⟨ps, cs, v, e, c, hc, rfl⟩
    have hi := (List.getElem?_eq_some_iff.mp e).1
    exact ⟨ps, cs, v, by rw [List.getElem?_append_left hi]; exact e, c, hc, rfl⟩

theorem append_reaches {h : List (Obj K T)} {o : Obj K T} (ho : ∀ ps cs v, o = .composed ps cs v → cs = []) (i j : Nat) :
    Reaches (h ++ [o]) i j ↔ Reaches h i j := by
  unfold Reaches
  rw [show Edge (h ++ [o]) = Edge h from funext fun a => funext fun b => propext (append_edge ho a b)]

theorem closed_append (h : List (Obj K T)) (o : Obj K T) (ho : ∀ ps cs v, o = .composed ps cs v → cs = []) (hc : Closed h) :
    Closed (h ++ [o]) := by
  intro i j e
  rw [append_edge ho] at e
  have := hc i j e
  simp
  omega

theorem closed_push (h h' : List (Obj K T)) (a b : Nat) (s : Scale K) (p : Args K) (hc : Closed h) (e : push h a b s p = .ok h') :
    Closed h' := by
  intro i j hij
  rw [(push_get e).1]
  rcases (push_edge e i j).mp hij with hij | ⟨-, rfl⟩
  · exact hc i j hij
  · exact (push_get e).2.2.1

/-! ### Invariants of the construction -/

/-- What holds without objects, is kept by a new model, by a new empty composed model and by `push`, holds in all states. -/
theorem states_induction (P : List (Obj K T) → Prop) (h0 : P [])
    (h1 : ∀ h m v, (∀ items, m ≠ .composed items) → P h → P (h ++ [.base m v]))
    (h2 : ∀ h, P h → P (h ++ [.composed ["time", "location"] [] (⊥, ⊤)]))
    (h3 : ∀ h h' target model scale params, P h → push h target model scale params = .ok h' → P h')
    {h : List (Obj K T)} (hs : States h) : P h := by
  induction hs with
  | start => exact h0
  | base m v hm _ ih => exact h1 _ m v hm ih
  | push a b s p _ e ih => exact h3 _ _ a b s p ih e
  | @create h h' models _ e ih =>
    unfold Objects.create at e
    split at e
    · generalize h.length = n at e
      have key : ∀ (l : List Nat) (g : List (Obj K T)), P g → pushAll n l g = .ok h' → P h' := by
        intro l
        induction l with
        | nil =>
          intro g hg e
          rw [← Except.ok.inj e]
          exact hg
        | cons m l ihl =>
          intro g hg e
          unfold pushAll at e
          cases hp : push g n m (.scalar 1) {} with
          | error x => rw [hp] at e; cases e
          | ok g' =>
            rw [hp] at e
            exact ihl g' (h3 _ _ _ _ _ _ hg hp) e
      exact key models _ (h2 _ ih) e
    · cases e

/-- The same for the states with `push` only to objects which are not components. -/
theorem finished_induction (P : List (Obj K T) → Prop) (h0 : P [])
    (h1 : ∀ h m v, (∀ items, m ≠ .composed items) → P h → P (h ++ [.base m v]))
    (h2 : ∀ h, P h → P (h ++ [.composed ["time", "location"] [] (⊥, ⊤)]))
    (h3 : ∀ h h' target model scale params, P h → (∀ i, ¬Edge h i target) → model ≠ target →
      push h target model scale params = .ok h' → P h') {h : List (Obj K T)} (hs : FinishedStates h) : P h := by
  suffices H : P h ∧ Closed h from H.1
  have emp : ∀ ps cs v, (.composed ["time", "location"] [] (⊥, ⊤) : Obj K T) = .composed ps cs v → cs = [] := by
    rintro _ _ _ ⟨⟩
    rfl
  have cl := closed_append (K := K) (T := T)
  have pc := closed_push (K := K) (T := T)
  induction hs with
  | start => exact ⟨h0, by rintro i j ⟨ps, cs, v, e, -⟩; simp at e⟩
  | base m v hm _ ih => exact ⟨h1 _ m v hm ih.1, cl _ _ (by rintro _ _ _ ⟨⟩) ih.2⟩
  | push a b s p _ e1 e2 e ih => exact ⟨h3 _ _ a b s p ih.1 e1 e2 e, pc _ _ a b s p ih.2 e⟩
  | @create h h' models _ e ih =>
    unfold Objects.create at e
    split at e
    · rename_i hall
      have hall : ∀ m ∈ models, m < h.length := by simpa using hall
      have key : ∀ (l : List Nat) (g : List (Obj K T)), (∀ m ∈ l, m < h.length) → (∀ i, ¬Edge g i h.length) → P g → Closed g →
          pushAll h.length l g = .ok h' → P h' ∧ Closed h' := by
        intro l
        induction l with
        | nil =>
          intro g _ _ hg hc e
          rw [← Except.ok.inj e]
          exact ⟨hg, hc⟩
        | cons m l ihl =>
          intro g hl hn hg hc e
          unfold pushAll at e
          cases hp : push g h.length m (.scalar 1) {} with
          | error x => rw [hp] at e; cases e
          | ok g' =>
            rw [hp] at e
            have hm := hl m (List.mem_cons_self ..)
            refine ihl g' (fun x hx => hl x (List.mem_cons_of_mem _ hx)) (fun i hi => ?_)
              (h3 _ _ _ _ _ _ hg hn (by omega) hp) (pc _ _ _ _ _ _ hc hp) e
            rcases (push_edge hp i _).mp hi with hi | ⟨-, hi⟩
            · exact hn i hi
            · omega
      refine key models _ hall (fun i hi => ?_) (h2 _ ih.1) (cl _ _ emp ih.2) e
      rw [append_edge emp] at hi
      have := ih.2 _ _ hi
      omega
    · cases e

theorem states_closed {h : List (Obj K T)} (hs : States h) : Closed h := by
  refine states_induction Closed ?_ ?_ ?_ ?_ hs
  · rintro i j ⟨ps, cs, v, e, -⟩
    simp at e
  · exact fun h m v _ hc => closed_append h _ (by rintro _ _ _ ⟨⟩) hc
  · exact fun h hc => closed_append h _ (by rintro _ _ _ ⟨⟩; rfl) hc
  · exact fun h h' a b s p hc e => closed_push h h' a b s p hc e

/-- The models which are not composed are of the other kinds. -/
theorem states_leaves {h : List (Obj K T)} (hs : States h) : ∀ (j : Nat) (m : Member K) v, h[j]? = some (.base m v) →
    ∀ items, m ≠ .composed items := by
  refine states_induction (fun h => ∀ (j : Nat) (m : Member K) v, h[j]? = some (.base m v) → ∀ items, m ≠ .composed items)
    ?_ ?_ ?_ ?_ hs
  · intro j m v e
    simp at e
  · intro h m v hm hc j m' v' e
    rcases append_get e with e | ⟨-, e⟩
    · exact hc j m' v' e
    · cases e
      exact hm
  · intro h hc j m' v' e
    rcases append_get e with e | ⟨-, e⟩
    · exact hc j m' v' e
    · cases e
  · intro h h' a b s p hc e j m v hj
    exact hc j m v ((push_leaf e j m v).mp hj)

/-! ### What the attributes say about the components -/

/-- A property of the attributes which a composed model has exactly if its parts have it. -/
structure Joint (Q : Obj K T → Prop) : Prop where
  empty : Q (.composed ["time", "location"] [] (⊥, ⊤))
  push : ∀ ps cs v m c, Q (.composed (setUpdate ps m.parameters) (cs ++ [c]) (validityOverlap v m.validity)) ↔
    Q (.composed ps cs v) ∧ Q m

theorem leaf_append {h : List (Obj K T)} {o : Obj K T} (ho : ∀ ps cs v, o = .composed ps cs v → cs = []) {i : Nat} {m : Member K}
    {v : T × T} (hl : HasLeaf h i m v) : HasLeaf (h ++ [o]) i m v := by
  obtain ⟨j, h1, h2⟩ := hl
  refine ⟨j, (append_reaches ho i j).mpr h1, ?_⟩
  rw [List.getElem?_append_left (List.getElem?_eq_some_iff.mp h2).1]
  exact h2

/-- In all states: what holds for all the models which are not composed holds for the composed ones. -/
theorem joint_states {Q : Obj K T → Prop} (hQ : Joint Q) {h : List (Obj K T)} (hs : States h) :
    ∀ (i : Nat) o, h[i]? = some o → (∀ m v, HasLeaf h i m v → Q (.base m v)) → Q o := by
  refine states_induction (fun h => ∀ (i : Nat) o, h[i]? = some o → (∀ m v, HasLeaf h i m v → Q (.base m v)) → Q o) ?_ ?_ ?_ ?_ hs
  · intro i o e
    simp at e
  · intro h m v _ ih i o e hl
    have ho : ∀ ps cs w, (.base m v : Obj K T) = .composed ps cs w → cs = [] := by rintro _ _ _ ⟨⟩
    rcases append_get e with e' | ⟨-, rfl⟩
    · exact ih i o e' fun m' v' hl' => hl m' v' (leaf_append ho hl')
    · exact hl m v ⟨i, .refl, e⟩
  · intro h ih i o e hl
    have ho : ∀ ps cs w, (.composed ["time", "location"] [] (⊥, ⊤) : Obj K T) = .composed ps cs w → cs = [] := by
      rintro _ _ _ ⟨⟩
      rfl
    rcases append_get e with e' | ⟨-, rfl⟩
    · exact ih i o e' fun m' v' hl' => hl m' v' (leaf_append ho hl')
    · exact hQ.empty
  · intro h h' a b s p ih e i o ho hl
    obtain ⟨-, h1, -, ps, cs, v, m, h2, h3, h4⟩ := push_get e
    have old : ∀ k x, Reaches h' i k → h[k]? = some x → Q x := fun k x hk hx => ih k x hx fun m' v' hl' => by
      obtain ⟨j, j1, j2⟩ := hl'
      exact hl m' v' ⟨j, hk.trans (push_reaches e j1), (push_leaf e j m' v').mpr j2⟩
    by_cases hi : i = a
    · subst hi
      rw [h4] at ho
      rw [← Option.some.inj ho, hQ.push]
      exact ⟨old i _ .refl h2, old b m (.single ((push_edge e i b).mpr (.inr ⟨rfl, rfl⟩))) h3⟩
    · exact old i o .refl (by rw [← h1 i hi]; exact ho)

/-- With `push` only to objects which are not components: what holds for a composed model holds for all its parts. -/
theorem joint_finished {Q : Obj K T → Prop} (hQ : Joint Q) {h : List (Obj K T)} (hs : FinishedStates h) :
    ∀ (i : Nat) o, h[i]? = some o → Q o → ∀ m v, HasLeaf h i m v → Q (.base m v) := by
  suffices H : Closed h ∧ ∀ (i : Nat) o, h[i]? = some o → Q o → ∀ m v, HasLeaf h i m v → Q (.base m v) from H.2
  have new : ∀ (h : List (Obj K T)) (x : Obj K T), Closed h → (∀ ps cs v, x = .composed ps cs v → cs = []) →
      (∀ (i : Nat) o, h[i]? = some o → Q o → ∀ m v, HasLeaf h i m v → Q (.base m v)) →
      ∀ (i : Nat) o, (h ++ [x])[i]? = some o → Q o → ∀ m v, HasLeaf (h ++ [x]) i m v → Q (.base m v) := by
    rintro h x hc hx ih i o e hq m v ⟨j, j1, j2⟩
    rw [append_reaches hx] at j1
    rcases append_get e with e' | ⟨rfl, rfl⟩
    · rcases append_get j2 with j2' | ⟨rfl, j3⟩
      · exact ih i o e' hq m v ⟨j, j1, j2'⟩
      · rcases j1.cases_tail with hk | ⟨k, -, hk⟩
        · have := (List.getElem?_eq_some_iff.mp e').1
          omega
        · have := hc _ _ hk
          omega
    · rcases j1.cases_head with rfl | ⟨k, ⟨ps, cs, w, k1, -⟩, -⟩
      · rw [e] at j2
        rw [← Option.some.inj j2]
        exact hq
      · simp at k1
  refine finished_induction (fun h => Closed h ∧ ∀ (i : Nat) o, h[i]? = some o → Q o → ∀ m v, HasLeaf h i m v → Q (.base m v))
    ?_ ?_ ?_ ?_ hs
  · refine ⟨?_, fun i o e => by simp at e⟩
    rintro i j ⟨ps, cs, v, e, -⟩
    simp at e
  · intro h m v _ ih
    exact ⟨closed_append h _ (by rintro _ _ _ ⟨⟩) ih.1, new h _ ih.1 (by rintro _ _ _ ⟨⟩) ih.2⟩
  · intro h ih
    exact ⟨closed_append h _ (by rintro _ _ _ ⟨⟩; rfl) ih.1, new h _ ih.1 (by rintro _ _ _ ⟨⟩; rfl) ih.2⟩
  · rintro h h' a b s p ⟨hc, ih⟩ ha hb e
    refine ⟨closed_push h h' a b s p hc e, ?_⟩
    rintro i o ho hq m v ⟨j, j1, j2⟩
    obtain ⟨-, h1, -, ps, cs, w, x, h2, h3, h4⟩ := push_get e
    rw [push_leaf e] at j2
    have away : ∀ k, k ≠ a → Reaches h' k j → Reaches h k j := by
      intro k hk hr
      induction hr using ReflTransGen.head_induction_on with
      | refl => exact .refl
      | @head k l hkl _ ihr =>
        rcases (push_edge e k l).mp hkl with h5 | ⟨h5, -⟩
        · exact .head h5 (ihr (by rintro rfl; exact ha _ h5))
        · exact (hk h5).elim
    by_cases hi : i = a
    · subst hi
      rw [h4] at ho
      rw [← Option.some.inj ho, hQ.push] at hq
      rcases j1.cases_head with rfl | ⟨k, k1, k2⟩
      · rw [h2] at j2
        cases j2
      · rcases (push_edge e i k).mp k1 with h5 | ⟨-, rfl⟩
        · exact ih i _ h2 hq.1 m v ⟨j, .head h5 (away k (by rintro rfl; exact ha _ h5) k2), j2⟩
        · exact ih k _ h3 hq.2 m v ⟨j, away k hb k2, j2⟩
    · rw [h1 i hi] at ho
      exact ih i o ho hq m v ⟨j, away i hi j1, j2⟩

theorem mem_setUpdate (x : String) : ∀ (l s : List String), x ∈ setUpdate s l ↔ x ∈ s ∨ x ∈ l
  | [], s => by simp [setUpdate]
  | y :: l, s => by
    have := mem_setUpdate x l (if y ∈ s then s else s ++ [y])
    unfold setUpdate at this ⊢
    rw [List.foldl_cons, this]
    by_cases h : y ∈ s
    · rw [if_pos h, List.mem_cons]
      constructor
      · rintro (h' | h')
        · exact .inl h'
        · exact .inr (.inr h')
      · rintro (h' | rfl | h')
        · exact .inl h'
        · exact .inl h
        · exact .inr h'
    · rw [if_neg h]
      simp only [List.mem_append, List.mem_singleton, List.mem_cons]
      tauto

theorem joint_validity {t : T} (ht : ⊥ < t) : Joint (fun o : Obj K T => Within t o.validity) :=
  ⟨⟨bot_le, le_top⟩, fun _ _ v m _ => overlap_within ht v m.validity⟩

theorem joint_parameters {x : String} (h1 : x ≠ "time") (h2 : x ≠ "location") : Joint (fun o : Obj K T => x ∉ o.parameters) :=
  ⟨by simp [Obj.parameters, h1, h2], fun ps _ _ m _ => by
    change x ∉ setUpdate ps m.parameters ↔ x ∉ ps ∧ x ∉ m.parameters
    rw [mem_setUpdate, not_or]⟩

theorem states_time {h : List (Obj K T)} (hs : States h) : ∀ (i : Nat) o, h[i]? = some o → "time" ∈ o.parameters ∧ "location" ∈ o.parameters := by
  have hb : ∀ m : Member K, "time" ∈ baseParameters m ∧ "location" ∈ baseParameters m := by
    intro m
    cases m <;> simp [baseParameters]
  refine states_induction (fun h => ∀ (i : Nat) o, h[i]? = some o → "time" ∈ o.parameters ∧ "location" ∈ o.parameters) ?_ ?_ ?_ ?_ hs
  · intro i o e
    simp at e
  · intro h m v _ ih i o e
    rcases append_get e with e | ⟨-, rfl⟩
    · exact ih i o e
    · exact hb m
  · intro h ih i o e
    rcases append_get e with e | ⟨-, rfl⟩
    · exact ih i o e
    · simp [Obj.parameters]
  · intro h h' a b s p ih e i o ho
    obtain ⟨-, h1, -, ps, cs, v, m, h2, h3, h4⟩ := push_get e
    by_cases hi : i = a
    · subst hi
      rw [h4] at ho
      rw [← Option.some.inj ho]
      change "time" ∈ setUpdate ps m.parameters ∧ "location" ∈ setUpdate ps m.parameters
      rw [mem_setUpdate, mem_setUpdate]
      exact ⟨.inl (ih i _ h2).1, .inl (ih i _ h2).2⟩
    · rw [h1 i hi] at ho
      exact ih i o ho

/-- **C89**, when components are not changed any more: a time is within the validity of a composed model exactly if it is within
that of each model of which it consists, at any depth.  Missing of the full claim (false of the code, `C89_not_updated`):
components changed after they were added. -/
theorem C89_validity_partial (h : List (Obj K T)) (hs : FinishedStates h) (i : Nat) (o : Obj K T) (ho : h[i]? = some o) (t : T)
    (ht : ⊥ < t) : Within t o.validity ↔ ∀ m v, HasLeaf h i m v → Within t v :=
  ⟨fun hq m v hl => joint_finished (joint_validity ht) hs i o ho hq m v hl,
    fun hl => joint_states (joint_validity ht) (finished_states hs) i o ho hl⟩

/-- **C89**, in all states: a time within the validity of each model is within that of the composed model. -/
theorem C89_validity_all (h : List (Obj K T)) (hs : States h) (i : Nat) (o : Obj K T) (ho : h[i]? = some o) (t : T) (ht : ⊥ < t)
    (hl : ∀ m v, HasLeaf h i m v → Within t v) : Within t o.validity :=
  joint_states (joint_validity ht) hs i o ho hl

/-- **C89**, when components are not changed any more: the parameters are the time, the location and those of the models of which
the composed model consists.  Missing of the full claim: as in `C89_validity_partial`. -/
theorem C89_parameters_partial (h : List (Obj K T)) (hs : FinishedStates h) (i : Nat) (o : Obj K T) (ho : h[i]? = some o) (x : String) :
    x ∈ o.parameters ↔ x = "time" ∨ x = "location" ∨ ∃ m v, HasLeaf h i m v ∧ x ∈ baseParameters m := by
  by_cases h1 : x = "time"
  · subst h1
    simp [(states_time (finished_states hs) i o ho).1]
  by_cases h2 : x = "location"
  · subst h2
    simp [(states_time (finished_states hs) i o ho).2]
  simp only [h1, h2, false_or]
  constructor
  · intro hx
    by_contra hc
    push Not at hc
    exact joint_states (joint_parameters h1 h2) (finished_states hs) i o ho (fun m v hl => hc m v hl) hx
  · rintro ⟨m, v, hl, hx⟩
    by_contra hc
    exact joint_finished (joint_parameters h1 h2) hs i o ho hc m v hl hx

/-- **C89**, in all states: the parameters are among the time, the location and those of the models. -/
theorem C89_parameters_all (h : List (Obj K T)) (hs : States h) (i : Nat) (o : Obj K T) (ho : h[i]? = some o) (x : String)
    (hx : x ∈ o.parameters) : x = "time" ∨ x = "location" ∨ ∃ m v, HasLeaf h i m v ∧ x ∈ baseParameters m := by
  by_contra hc
  push Not at hc
  exact joint_states (joint_parameters hc.1 hc.2.1) hs i o ho (fun m v hl => hc.2.2 m v hl) hx

/-! ### Trees of models -/

theorem unfolds_mono {h : List (Obj K T)} : ∀ {n n' i : Nat} {m : Member K}, n ≤ n' → Unfolds h n i m → Unfolds h n' i m
  | 0, _, _, _, _, hu => hu.elim
  | n + 1, 0, _, _, hn, _ => by omega
  | n + 1, n' + 1, i, m, hn, hu => by
    rcases hu with hu | ⟨ps, cs, v, items, e, rfl, hf⟩
    · exact .inl hu
    · exact .inr ⟨ps, cs, v, items, e, rfl, hf.imp fun c it hc => ⟨unfolds_mono (by omega) hc.1, hc.2⟩⟩

theorem unfolds_agree {h g : List (Obj K T)} {S : Nat → Prop} (h1 : ∀ i, S i → g[i]? = h[i]?) (h2 : ∀ i j, S i → Edge h i j → S j) :
    ∀ {n i : Nat} {m : Member K}, S i → Unfolds h n i m → Unfolds g n i m
  | 0, _, _, _, hu => hu.elim
  | n + 1, i, m, hi, hu => by
    rcases hu with ⟨v, e⟩ | ⟨ps, cs, v, items, e, rfl, hf⟩
    · exact .inl ⟨v, by rw [h1 i hi, e]⟩
    · refine .inr ⟨ps, cs, v, items, by rw [h1 i hi, e], rfl, ?_⟩
      have hS : ∀ c ∈ cs, S c.model := fun c hc => h2 i _ hi ⟨ps, cs, v, e, c, hc, rfl⟩
      clear e
      induction hf with
      | nil => exact .nil
      | cons hc _ ih =>
        exact .cons ⟨unfolds_agree h1 h2 (hS _ (List.mem_cons_self ..)) hc.1, hc.2⟩
          (ih fun c hc => hS c (List.mem_cons_of_mem _ hc))

/-- **C89**: `push` adds the model with its scale and parameters at the end of the components; objects which do not contain the
changed one stay as they are. -/
theorem C89_push (h h' : List (Obj K T)) (target model : Nat) (scale : Scale K) (params : Args K)
    (e : push h target model scale params = .ok h') :
    (∀ n i m, ¬Reaches h i target → Unfolds h n i m → Unfolds h' n i m) ∧
    ∀ n items m, Unfolds h n target (.composed items) → Unfolds h n model m → ¬TransGen (Edge h) target target → ¬Reaches h model target →
      Unfolds h' (n + 1) target (.composed (items ++ [(m, scale, params)])) := by
  obtain ⟨-, g1, -, ps, cs, v, x, g2, g3, g4⟩ := push_get e
  have keep : ∀ n i m, ¬Reaches h i target → Unfolds h n i m → Unfolds h' n i m := fun n i m hi hu =>
    unfolds_agree (S := fun i => ¬Reaches h i target) (fun i hi => g1 i (by rintro rfl; exact hi .refl))
      (fun i j hi hij hj => hi (.head hij hj)) hi hu
  refine ⟨keep, fun n items m hu hm hc hr => ?_⟩
  match n, hu with
  | n + 1, hu =>
    rcases hu with ⟨w, e'⟩ | ⟨ps', cs', w, items', e', e2, hf⟩
    · rw [g2] at e'
      cases e'
    · cases e2
      rw [g2] at e'
      cases e'
      refine .inr ⟨_, _, _, _, g4, rfl, List.rel_append ?_ (.cons ⟨keep _ _ _ hr hm, rfl⟩ .nil)⟩
      have hS : ∀ c ∈ cs, ¬Reaches h c.model target := fun c hx hj => hc (.head' ⟨ps, cs, v, g2, c, hx, rfl⟩ hj)
      have key : ∀ {cs : List (Objects.Component K)} {items : List (Member K × Scale K × Args K)},
          List.Forall₂ (fun (c : Objects.Component K) it => Unfolds h n c.model it.1 ∧ it.2 = (c.scale, c.params)) cs items →
          (∀ c ∈ cs, ¬Reaches h c.model target) → List.Forall₂ (fun (c : Objects.Component K) it => Unfolds h' (n + 1) c.model it.1 ∧
            it.2 = (c.scale, c.params)) cs items := by
        intro cs items hf hS
        induction hf with
        | nil => exact .nil
        | cons hx _ ih =>
          exact .cons ⟨keep _ _ _ (hS _ (List.mem_cons_self ..)) (unfolds_mono (by omega) hx.1), hx.2⟩
            (ih fun c hc => hS c (List.mem_cons_of_mem _ hc))
      exact key hf hS

theorem pushAll_get (target : Nat) : ∀ (l : List Nat) (g g' : List (Obj K T)) (ps : List String) (cs : List (Objects.Component K)) (v : T × T),
    g[target]? = some (.composed ps cs v) → pushAll target l g = .ok g' → g'.length = g.length ∧ (∀ i, i ≠ target → g'[i]? = g[i]?) ∧
      ∃ ps' v', g'[target]? = some (.composed ps' (cs ++ l.map (fun m => ⟨m, .scalar 1, {}⟩)) v')
  | [], g, g', ps, cs, v, hg, e => by
    rw [← Except.ok.inj e]
    exact ⟨rfl, fun _ _ => rfl, ps, v, by simpa using hg⟩
  | m :: l, g, g', ps, cs, v, hg, e => by
    unfold pushAll at e
    cases hp : push g target m (.scalar 1) {} with
    | error x => rw [hp] at e; cases e
    | ok g2 =>
      rw [hp] at e
      obtain ⟨e1, e2, -, ps', cs', v', x, e3, -, e4⟩ := push_get hp
      rw [hg] at e3
      cases e3
      obtain ⟨f1, f2, ps2, v2, f3⟩ := pushAll_get target l g2 g' _ _ _ e4 e
      exact ⟨f1.trans e1, fun i hi => (f2 i hi).trans (e2 i hi), ps2, v2, by simpa using f3⟩

/-- **C89**: the constructor gives a new object of the models with the scale 1 and without parameters; the other objects stay as
they are. -/
theorem C89_create (h h' : List (Obj K T)) (hs : States h) (models : List Nat) (e : create h models = .ok h') :
    h'.length = h.length + 1 ∧ (∀ n i m, i < h.length → Unfolds h n i m → Unfolds h' n i m) ∧
    ∀ n ms, List.Forall₂ (Unfolds h n) models ms →
      Unfolds h' (n + 1) h.length (.composed (ms.map (fun m => (m, .scalar 1, {})))) := by
  unfold Objects.create at e
  split at e
  · rename_i hall
    have hall : ∀ m ∈ models, m < h.length := by simpa using hall
    obtain ⟨g1, g2, ps, v, g3⟩ := pushAll_get h.length models _ _ ["time", "location"] [] (⊥, ⊤) (by simp) e
    have keep : ∀ n i m, i < h.length → Unfolds h n i m → Unfolds h' n i m := fun n i m hi hu =>
      unfolds_agree (S := fun i => i < h.length) (fun i hi => by rw [g2 i (by omega), List.getElem?_append_left hi])
        (fun i j _ hij => states_closed hs i j hij) hi hu
    refine ⟨by simpa using g1, keep, fun n ms hf => .inr ⟨_, _, _, _, g3, rfl, ?_⟩⟩
    have key : ∀ {l : List Nat} {ms : List (Member K)}, List.Forall₂ (Unfolds h n) l ms → (∀ m ∈ l, m < h.length) →
        List.Forall₂ (fun (c : Objects.Component K) it => Unfolds h' n c.model it.1 ∧ it.2 = (c.scale, c.params))
          (l.map (fun m => ⟨m, .scalar 1, {}⟩)) (ms.map (fun m => (m, .scalar 1, {}))) := by
      intro l ms hf hall
      induction hf with
      | nil => exact .nil
      | cons hx _ ih =>
        exact .cons ⟨keep _ _ _ (hall _ (List.mem_cons_self ..)) hx, rfl⟩ (ih fun x hx => hall x (List.mem_cons_of_mem _ hx))
    exact key hf hall
  · cases e

theorem unfolds_exists {h : List (Obj K T)} (hc : Closed h) (hn : NoCycle h) : ∀ i < h.length, ∃ n m, Unfolds h n i m := by
  let r : Fin h.length → Fin h.length → Prop := fun a b => TransGen (Edge h) b a
  haveI : IsTrans _ r := ⟨fun a b c h1 h2 => TransGen.trans h2 h1⟩
  haveI : Std.Irrefl r := ⟨fun a => hn a⟩
  have wf : WellFounded r := Finite.wellFounded_of_trans_of_irrefl r
  suffices H : ∀ i : Fin h.length, ∃ n m, Unfolds h n i m from fun i hi => H ⟨i, hi⟩
  intro i
  induction i using wf.induction with
  | _ i ih =>
    cases e : h[(i : Nat)]'i.2 with
    | base m v => exact ⟨1, m, .inl ⟨v, by rw [List.getElem?_eq_getElem i.2, e]⟩⟩
    | composed ps cs v =>
      have e' : h[(i : Nat)]? = some (.composed ps cs v) := by rw [List.getElem?_eq_getElem i.2, e]
      have key : ∀ l : List (Objects.Component K), (∀ c ∈ l, c ∈ cs) → ∃ n items, List.Forall₂
          (fun (c : Objects.Component K) (it : Member K × Scale K × Args K) => Unfolds h n c.model it.1 ∧ it.2 = (c.scale, c.params)) l items := by
        intro l
        induction l with
        | nil => exact fun _ => ⟨0, [], .nil⟩
        | cons c l ihl =>
          intro hl
          obtain ⟨n, items, hf⟩ := ihl fun x hx => hl x (List.mem_cons_of_mem _ hx)
          have hed : Edge h i c.model := ⟨ps, cs, v, e', c, hl c (List.mem_cons_self ..), rfl⟩
          obtain ⟨n', m, hu⟩ := ih ⟨c.model, hc _ _ hed⟩ (.single hed)
          exact ⟨max n n', (m, c.scale, c.params) :: items, .cons ⟨unfolds_mono (le_max_right _ _) hu, rfl⟩
            (hf.imp fun c it hc => ⟨unfolds_mono (le_max_left _ _) hc.1, hc.2⟩)⟩
      obtain ⟨n, items, hf⟩ := key cs fun _ hx => hx
      exact ⟨n + 1, .composed items, .inr ⟨ps, cs, v, items, e', rfl, hf⟩⟩

end states

/-! ### Evaluation -/

theorem failing_bind {A B : Type} (x : Except Failure A) (f : A → Except Failure B) :
    failing (x >>= f) = failing x >>= fun a => failing (f a) := by
  cases x <;> rfl

section eval
variable {T St : Type} (env : MioEnv ℝ St)

theorem eval_others {h : List (Obj ℝ T)} {n : Nat} (hev : ∀ i m, Unfolds h n i m → ∀ time loc ctIn ctOut scale args,
    evalObj libm env h n i time loc ctIn ctOut scale args = failing (evalMember libm env m time loc ctIn ctOut scale args))
    {cs : List (Objects.Component ℝ)} {items : List (Member ℝ × Scale ℝ × Args ℝ)}
    (hf : List.Forall₂ (fun (c : Objects.Component ℝ) it => Unfolds h n c.model it.1 ∧ it.2 = (c.scale, c.params)) cs items)
    (time : NdArray (X ℝ)) (sph : NdArray ℝ) (args : Args ℝ) : ∀ result : Items ℝ,
    evalOthers (evalObj libm env h n) cs time sph args result = failing (evalRest libm env items time sph args result) := by
  induction hf with
  | nil =>
    intro result
    simp only [evalOthers, evalRest, failing]
  | @cons c it cs items hc _ ih =>
    intro result
    obtain ⟨m, sc, ps⟩ := it
    obtain ⟨h1, h2⟩ := hc
    cases h2
    simp only [evalOthers, evalRest, failing_bind, hev _ _ h1, ih]

theorem eval_components {h : List (Obj ℝ T)} {n : Nat} (hev : ∀ i m, Unfolds h n i m → ∀ time loc ctIn ctOut scale args,
    evalObj libm env h n i time loc ctIn ctOut scale args = failing (evalMember libm env m time loc ctIn ctOut scale args))
    {cs : List (Objects.Component ℝ)} {items : List (Member ℝ × Scale ℝ × Args ℝ)}
    (hf : List.Forall₂ (fun (c : Objects.Component ℝ) it => Unfolds h n c.model it.1 ∧ it.2 = (c.scale, c.params)) cs items)
    (time : NdArray (X ℝ)) (loc sph : NdArray ℝ) (args : Args ℝ) :
    evalComponents (evalObj libm env h n) cs time loc sph args = failing (evalItems libm env items time loc sph args) := by
  cases hf with
  | nil => simp only [evalComponents, evalItems]
  | @cons c it cs items hc hr =>
    obtain ⟨m, sc, ps⟩ := it
    obtain ⟨h1, h2⟩ := hc
    cases h2
    simp only [evalComponents, evalItems, failing_bind, hev _ _ h1, eval_others env hev hr]

theorem eval_unfolds (h : List (Obj ℝ T)) : ∀ (n i : Nat) (m : Member ℝ), Unfolds h n i m → ∀ time loc ctIn ctOut scale args,
    evalObj libm env h n i time loc ctIn ctOut scale args = failing (evalMember libm env m time loc ctIn ctOut scale args)
  | 0, _, _, hu, _, _, _, _, _, _ => hu.elim
  | n + 1, i, m, hu, time, loc, ctIn, ctOut, scale, args => by
    rcases hu with ⟨v, e⟩ | ⟨ps, cs, v, items, e, rfl, hf⟩
    · simp only [evalObj, e]
    · simp only [evalObj, e, evalMember, failing_bind, eval_components env (eval_unfolds h n) hf]

end eval

section theorems
variable {T St : Type} [LinearOrder T] [BoundedOrder T] (env : MioEnv ℝ St)

/-- **C89**, evaluation: in all states without cycles an object is evaluated as the tree of the models of which it consists at that
time (C80), when enough calls within one another are allowed. -/
theorem C89_eval (h : List (Obj ℝ T)) (hs : States h) (hn : NoCycle h) (i : Nat) (hi : i < h.length) :
    ∃ n m, Unfolds h n i m ∧ ∀ calls ≥ n, ∀ time loc ctIn ctOut scale args,
      evalObj libm env h calls i time loc ctIn ctOut scale args = failing (evalMember libm env m time loc ctIn ctOut scale args) := by
  obtain ⟨n, m, hu⟩ := unfolds_exists (states_closed hs) hn i hi
  exact ⟨n, m, hu, fun calls hc => eval_unfolds env h calls i m (unfolds_mono hc hu)⟩

/-- **C89**: in a state in which an object consists of itself (`push` accepts it) it is never evaluated, however many calls are
allowed. -/
theorem C89_cycle (h : List (Obj ℝ T)) (i j : Nat) (h1 : Reaches h i j) (h2 : TransGen (Edge h) j j) (calls : Nat)
    (time : NdArray (X ℝ)) (loc : NdArray ℝ) (ctIn ctOut : Int) (scale : Scale ℝ) (args : Args ℝ) (r : Items ℝ) :
    evalObj libm env h calls i time loc ctIn ctOut scale args ≠ .ok r := by
  induction calls generalizing i j time loc ctIn ctOut scale args r with
  | zero => simp [evalObj]
  | succ n ih =>
    obtain ⟨k, ⟨ps, cs, v, e, c, hc, rfl⟩, h3⟩ : ∃ k, Edge h i k ∧ Reaches h k j := by
      rcases h1.cases_head with rfl | ⟨k, h3, h4⟩
      · obtain ⟨k, h3, h4⟩ := TransGen.head'_iff.mp h2
        exact ⟨k, h3, h4⟩
      · exact ⟨k, h3, h4⟩
    have bad := fun time loc a b s p r => ih c.model j h3 h2 time loc a b s p r
    have others : ∀ (l : List (Objects.Component ℝ)), c ∈ l → ∀ sph args result r,
        evalOthers (evalObj libm env h n) l time sph args result ≠ .ok r := by
      intro l
      induction l with
      | nil => simp
      | cons d l ihl =>
        intro hcl sph args result r hr
        unfold evalOthers at hr
        cases hd : evalObj libm env h n d.model time sph 1 1 d.scale (args.update d.params) with
        | error x => rw [hd] at hr; cases hr
        | ok y =>
          rw [hd, da_ok_bind] at hr
          rcases List.mem_cons.mp hcl with rfl | hcl
          · exact bad _ _ _ _ _ _ _ hd
          · cases hf : failing (addArrays result y) with
            | error x => rw [hf] at hr; cases hr
            | ok z =>
              rw [hf, da_ok_bind] at hr
              exact ihl hcl _ _ _ _ hr
    have comps : ∀ sph args r, evalComponents (evalObj libm env h n) cs time loc sph args ≠ .ok r := by
      intro sph args r hr
      cases cs with
      | nil => simp at hc
      | cons d l =>
        simp only [evalComponents] at hr
        cases hd : evalObj libm env h n d.model time sph 1 1 d.scale (args.update d.params) with
        | error x => rw [hd] at hr; cases hr
        | ok y =>
          rw [hd, da_ok_bind] at hr
          rcases List.mem_cons.mp hc with rfl | hc
          · exact bad _ _ _ _ _ _ _ hd
          · exact others l hc _ _ _ _ hr
    intro hr
    simp only [evalObj, e] at hr
    cases hk : failing (called (convertNd libm env.junk loc ctIn 1)) with
    | error x => rw [hk] at hr; cases hr
    | ok sph =>
      rw [hk, da_ok_bind] at hr
      cases hk2 : evalComponents (evalObj libm env h n) cs time loc sph args with
      | error x => rw [hk2] at hr; cases hr
      | ok y => exact comps _ _ _ hk2

/-- **C89**: a composed model may be added to itself; then its evaluation ends with `RecursionError`. -/
theorem C89_self (hj : ∀ n, (env.junk n).length = n) (loc : NdArray ℝ) (lead : List Nat) (hl : lead.length ≤ 15) (P : List Nat → V3 ℝ)
    (hx : VectorsOf loc lead P) (i : CT) (s : Scale ℝ) (p : Args ℝ) (time : NdArray (X ℝ)) (ctOut : Int) (scale : Scale ℝ)
    (args : Args ℝ) (calls : Nat) :
    ∃ h1 h2 : List (Obj ℝ T), create [] [] = .ok h1 ∧ push h1 0 0 s p = .ok h2 ∧
      evalObj libm env h2 calls 0 time loc (code i) ctOut scale args = .error .recursion := by
  refine ⟨[.composed ["time", "location"] [] (⊥, ⊤)], _, rfl, rfl, ?_⟩
  induction calls generalizing loc P i ctOut scale args with
  | zero => rfl
  | succ n ih =>
    obtain ⟨y, y1, y2, -⟩ := nd_convert_last env.junk hj hl hx i .spherical
    have y1 : convertNd libm env.junk loc (code i) 1 = .ok y := y1
    simp only [evalObj, List.set_cons_zero, List.getElem?_cons_zero, List.nil_append, y1, called, failing, da_ok_bind, evalComponents]
    have := ih y _ y2 .spherical (code .spherical) s (args.update p)
    simp only [List.set_cons_zero, List.nil_append] at this
    rw [show (1 : Int) = code .spherical from rfl, this]
    rfl

theorem finished_nocycle {K : Type} [One K] {h : List (Obj K T)} (hs : FinishedStates h) : NoCycle h := by
  refine finished_induction NoCycle ?_ ?_ ?_ ?_ hs
  · intro i hi
    obtain ⟨k, ⟨ps, cs, v, e, -⟩, -⟩ := TransGen.head'_iff.mp hi
    simp at e
  · intro h m v _ ih i hi
    exact ih i (TransGen.mono (fun a b => (append_edge (by rintro _ _ _ ⟨⟩) a b).mp) _ _ hi)
  · intro h ih i hi
    exact ih i (TransGen.mono (fun a b => (append_edge (by rintro _ _ _ ⟨⟩; rfl) a b).mp) _ _ hi)
  · intro h h' a b s p ih ha hb e i hi
    have into : ∀ k l, Edge h' k l → l ≠ a := by
      rintro k l hkl rfl
      rcases (push_edge e k l).mp hkl with h5 | ⟨-, h5⟩
      · exact ha k h5
      · exact hb h5.symm
    have hia : i ≠ a := by
      obtain ⟨k, -, h5⟩ := TransGen.tail'_iff.mp hi
      exact into k i h5
    have old : ∀ k, k ≠ a → TransGen (Edge h') k i → TransGen (Edge h) k i := by
      intro k hk hr
      induction hr using TransGen.head_induction_on with
      | @single k hkl =>
        rcases (push_edge e k i).mp hkl with h5 | ⟨h5, -⟩
        · exact .single h5
        · exact (hk h5).elim
      | @head k l hkl _ ihr =>
        rcases (push_edge e k l).mp hkl with h5 | ⟨h5, -⟩
        · exact .head h5 (ihr (into k l hkl))
        · exact (hk h5).elim
    exact ih i (old i hia hi)

/-- **C89**, when components are not changed any more every object is evaluated as the tree of its models. -/
theorem C89_finished (h : List (Obj ℝ T)) (hs : FinishedStates h) (i : Nat) (hi : i < h.length) :
    ∃ n m, Unfolds h n i m ∧ ∀ calls ≥ n, ∀ time loc ctIn ctOut scale args,
      evalObj libm env h calls i time loc ctIn ctOut scale args = failing (evalMember libm env m time loc ctIn ctOut scale args) :=
  C89_eval env h (finished_states hs) (finished_nocycle hs) i hi

/-- **C89**, false of the code: the validity and the parameters of a composed model are those of the models of which it consists.  A
model added to a component afterwards is evaluated with the whole, but validity and parameters of the whole do not change. -/
theorem C89_not_updated (m : MioModel ℝ) (v : T × T) (s : Scale ℝ) (p : Args ℝ) : ∃ h1 h2 h : List (Obj ℝ T), ∃ o,
    create [.base (.mio m) v] [] = .ok h1 ∧ create h1 [1] = .ok h2 ∧ push h2 1 0 s p = .ok h ∧
    Unfolds h 3 2 (.composed [(.composed [(.mio m, s, p)], .scalar 1, {})]) ∧
    h[2]? = some o ∧ o.validity = (⊥, ⊤) ∧ "f107" ∉ o.parameters := by
  have e : validityOverlap (⊥, ⊤) ((⊥, ⊤) : T × T) = (⊥, ⊤) := by simp [validityOverlap]
  have h2 : create [.base (.mio m) v, .composed ["time", "location"] [] (⊥, ⊤)] [1] = .ok [.base (.mio m) v,
      .composed ["time", "location"] [] (⊥, ⊤),
      (.composed ["time", "location"] [⟨1, .scalar 1, {}⟩] (⊥, ⊤) : Obj ℝ T)] := by
    have : create [.base (.mio m) v, .composed ["time", "location"] [] (⊥, ⊤)] [1] = .ok [.base (.mio m) v,
        .composed ["time", "location"] [] (⊥, ⊤),
        (.composed ["time", "location"] [⟨1, .scalar 1, {}⟩] (validityOverlap (⊥, ⊤) (⊥, ⊤)) : Obj ℝ T)] := rfl
    rwa [e] at this
  refine ⟨[.base (.mio m) v, .composed ["time", "location"] [] (⊥, ⊤)], _, _, .composed ["time", "location"] [⟨1, .scalar 1, {}⟩] (⊥, ⊤),
    rfl, h2, rfl, ?_, rfl, rfl, by simp [Obj.parameters]⟩
  refine .inr ⟨_, _, _, _, rfl, rfl, .cons ⟨.inr ⟨_, _, _, _, rfl, rfl, .cons ⟨.inl ⟨v, rfl⟩, rfl⟩ .nil⟩, rfl⟩ .nil⟩

/-! ### Parameters -/

/-- The same limits of the degree. -/
def SameDegrees (a b : Args ℝ) : Prop := a.minDegree = b.minDegree ∧ a.maxDegree = b.maxDegree

theorem same_update {a b : Args ℝ} (h : SameDegrees a b) (p : Args ℝ) : SameDegrees (a.update p) (b.update p) := by
  obtain ⟨h1, h2⟩ := h
  exact ⟨by simp [Args.update, h1], by simp [Args.update, h2]⟩

theorem same_others {ev : EvalRef ℝ} {time : NdArray (X ℝ)} {sph : NdArray ℝ} {a b : Args ℝ} (h : SameDegrees a b) :
    ∀ (l : List (Objects.Component ℝ)), (∀ c ∈ l, ∀ s a b, SameDegrees a b → ev c.model time sph 1 1 s a = ev c.model time sph 1 1 s b) →
    ∀ r, evalOthers ev l time sph a r = evalOthers ev l time sph b r
  | [], _, _ => by simp only [evalOthers]
  | c :: l, hev, r => by
    simp only [evalOthers]
    rw [hev c (List.mem_cons_self ..) _ _ _ (same_update h c.params)]
    congr 1
    funext x
    congr 1
    funext y
    exact same_others h l (fun d hd => hev d (List.mem_cons_of_mem _ hd)) y

/-- **C89**: a model which does not have the parameter F10.7 does not depend on it, nor on the sub-solar point (when components are not
changed any more). -/
theorem C89_independent (h : List (Obj ℝ T)) (hs : FinishedStates h) (i : Nat) (o : Obj ℝ T) (ho : h[i]? = some o)
    (hf : "f107" ∉ o.parameters) (a b : Args ℝ) (hab : SameDegrees a b) (calls : Nat) (time : NdArray (X ℝ)) (loc : NdArray ℝ)
    (ctIn ctOut : Int) (scale : Scale ℝ) :
    evalObj libm env h calls i time loc ctIn ctOut scale a = evalObj libm env h calls i time loc ctIn ctOut scale b := by
  have hl : ∀ m v, HasLeaf h i m v → "f107" ∉ baseParameters m := fun m v hl =>
    joint_finished (joint_parameters (by decide) (by decide)) hs i o ho hf m v hl
  have hb := states_leaves (finished_states hs)
  clear hf ho
  induction calls generalizing i loc ctIn ctOut scale a b with
  | zero => rfl
  | succ n ih =>
    simp only [evalObj]
    cases e : h[i]? with
    | none => rfl
    | some x =>
      cases x with
      | base m v =>
        have h1 := hl m v ⟨i, .refl, e⟩
        have h2 := hb i m v e
        have h3 : ∀ s, a.options s = b.options s := fun s => by simp only [Args.options, hab.1, hab.2]
        cases m with
        | sh c => simp only [evalMember, h3]
        | dipole c x y => simp only [evalMember, h3]
        | mio m => simp [baseParameters] at h1
        | primary _ _ _ _ => simp [baseParameters] at h1
        | composed items => exact (h2 items rfl).elim
      | composed ps cs v =>
        have hev : ∀ c ∈ cs, ∀ sph s a b, SameDegrees a b → evalObj libm env h n c.model time sph 1 1 s a =
            evalObj libm env h n c.model time sph 1 1 s b := fun c hc sph s a b hab =>
          ih c.model a b hab sph 1 1 s fun m w ⟨j, j1, j2⟩ => hl m w ⟨j, .head ⟨ps, cs, v, e, c, hc, rfl⟩ j1, j2⟩
        have hcs : ∀ sph, evalComponents (evalObj libm env h n) cs time loc sph a =
            evalComponents (evalObj libm env h n) cs time loc sph b := by
          intro sph
          clear e
          cases cs with
          | nil => simp only [evalComponents]
          | cons c l =>
            simp only [evalComponents]
            rw [hev c (List.mem_cons_self ..) _ _ _ _ (same_update hab c.params)]
            congr 1
            funext x
            exact same_others hab l (fun d hd => hev d (List.mem_cons_of_mem _ hd) sph) x
        simp only [hcs]

/-- A model of two parts, one of which is composed: its validity, its tree. -/
example (c1 c2 : ModelEval.Tree (Ext ℝ) (Sparse ℝ)) (p : Args ℝ) : ∃ h : List (Obj ℝ (Fin 10)), FinishedStates h ∧
    Unfolds h 3 3 (.composed [(.composed [(.sh c1, .scalar 1, {})], .scalar 1, {}), (.sh c2, .scalar 2, p)]) ∧
    ∃ o, h[3]? = some o ∧ o.validity = (5, 8) := by
  have s0 : FinishedStates ([] : List (Obj ℝ (Fin 10))) := .start
  have s1 := s0.base (.sh c1) (1, 8) (by simp)
  have s2 := s1.base (.sh c2) (5, 9) (by simp)
  have s3 := s2.create [0] rfl
  have s4 := s3.create [2] rfl
  have s5 := s4.push 3 1 (.scalar 2) p (by
    rintro i ⟨ps, cs, v, e, c, hc, h3⟩
    match i, e with
    | 0, e => simp at e
    | 1, e => simp at e
    | 2, e =>
      cases e
      simp at hc
      subst hc
      simp at h3
    | 3, e =>
      cases e
      simp at hc
      subst hc
      simp at h3
    | i + 4, e => simp at e) (by omega) rfl
  refine ⟨_, s5, ?_, _, rfl, ?_⟩
  · exact .inr ⟨_, _, _, _, rfl, rfl, .cons ⟨.inr ⟨_, _, _, _, rfl, rfl, .cons ⟨.inl ⟨_, rfl⟩, rfl⟩ .nil⟩, rfl⟩
      (.cons ⟨.inl ⟨_, rfl⟩, rfl⟩ .nil)⟩
  · change validityOverlap (validityOverlap (⊥, ⊤) (validityOverlap (⊥, ⊤) (1, 8))) (5, 9) = ((5, 8) : Fin 10 × Fin 10)
    decide

end theorems

end Verif.Props
