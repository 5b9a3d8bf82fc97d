import Verif.Lemmas.ResourcesFuns

/-!
# C73: what is acquired in a call is released
-/

namespace Verif.Props

open Verif.Res Verif.Spec V

theorem res_run {T : Bool} {A : List V} {c : Call} {x : Bool} (h : ResFun T A c.body x) (e : Env)
    (ht : T = true → e.tuple = true) : ∃ s, c.run e = some s ∧ CallDone x s := by
  have := h e ht St.init (I.init A)
  unfold Call.run
  cases hm : c.body e St.init with
  | ok a s => rw [hm] at this; exact ⟨s, rfl, this⟩
  | jump s => rw [hm] at this; exact this.elim
  | fault => rw [hm] at this; exact this.elim

theorem res_all (c : Call) (hc : isSheval2dfs c = false) (e : Env) (ht : makesTuple c = true → e.tuple = true) :
    ∃ s, c.run e = some s ∧ CallDone (!flagsHaveTruthValue c) s := by
  have hf : ∀ (f : Option Bool), badFlag f = !(match f with | some b => b | none => true) := by
    rintro (_ | _ | _) <;> rfl
  cases c with
  | bisect => exact res_run (c := .bisect) (res_bisect false) e (by simp)
  | interp f =>
    obtain ⟨s, h1, h2⟩ := res_run (c := .interp f) (res_interp false f) e (by simp)
    refine ⟨s, h1, ?_⟩
    rcases f with _ | b <;> rw [hf] at h2 <;> exact h2
  | convert b => exact res_run (c := .convert b) (res_convert false b) e (by simp)
  | vrotSph2geod => exact res_run (c := .vrotSph2geod) (res_vrotSph2geod false) e (by simp)
  | vrotSphCart => exact res_run (c := .vrotSphCart) (res_vrotSphCart false) e (by simp)
  | timeconv => exact res_run (c := .timeconv) (res_timeconv false) e (by simp)
  | loncossin => exact res_run (c := .loncossin) (res_loncossin false) e (by simp)
  | relradpow f =>
    obtain ⟨s, h1, h2⟩ := res_run (c := .relradpow f) (res_relradpow false f) e (by simp)
    refine ⟨s, h1, ?_⟩
    rcases f with _ | b <;> rw [hf] at h2 <;> exact h2
  | spharpot => exact res_run (c := .spharpot) (res_spharpot false) e (by simp)
  | sphargrd f =>
    obtain ⟨s, h1, h2⟩ := res_run (c := .sphargrd f) (res_sphargrd false f) e (by simp)
    refine ⟨s, h1, ?_⟩
    rcases f with _ | b <;> rw [hf] at h2 <;> exact h2
  | sunpos => exact res_run (c := .sunpos) (res_sunpos false) e (by simp)
  | sunposOriginal => exact res_run (c := .sunposOriginal) (res_sunposOriginal false) e (by simp)
  | evalMlt => exact res_run (c := .evalMlt) (res_evalMlt false) e (by simp)
  | fourier2d => exact res_run (c := .fourier2d) (res_fourier2d false) e (by simp)
  | legendre => exact res_run (c := .legendre) res_legendre e (fun _ => ht rfl)
  | evalSubsol => exact res_run (c := .evalSubsol) res_evalSubsol e (fun _ => ht rfl)
  | evalQdlatlon b f => exact res_run (c := .evalQdlatlon b f) (res_evalQdlatlon b f) e (fun _ => ht rfl)
  | sheval m f b =>
    have : ∃ s, (Call.sheval m f b).run e = some s ∧ CallDone (badFlag f) s := by
      cases m
      · exact res_run (c := .sheval .pot f b) (res_sheval_pot false f b) e (by simp)
      · exact res_run (c := .sheval .grd f b) (res_sheval_grd false f b) e (by simp)
      · exact res_run (c := .sheval .both f b) (res_sheval_both f b) e (fun _ => ht rfl)
    obtain ⟨s, h1, h2⟩ := this
    refine ⟨s, h1, ?_⟩
    rcases f with _ | b <;> rw [hf] at h2 <;> exact h2
  | shevaltemp n m f b =>
    have : ∃ s, (Call.shevaltemp n m f b).run e = some s ∧ CallDone (badFlag f) s := by
      cases m
      · exact res_run (c := .shevaltemp n .pot f b) (res_shevaltemp_pot false n f b) e (by simp)
      · exact res_run (c := .shevaltemp n .grd f b) (res_shevaltemp_grd false n f b) e (by simp)
      · exact res_run (c := .shevaltemp n .both f b) (res_shevaltemp_both n f b) e (fun _ => ht rfl)
    obtain ⟨s, h1, h2⟩ := this
    refine ⟨s, h1, ?_⟩
    rcases f with _ | b <;> rw [hf] at h2 <;> exact h2
  | sheval2dfs m f b p => cases hc

/-- **C73** (first part).  Whatever fails in a call (conversion of an argument, a check, the memory), the
call comes to its end without undefined behaviour, and everything acquired in it is released, except the
one reference to the returned object.  Missing: `sheval2dfs` (it loses memory, below), and that there is
no memory for the tuple of several results (double release, below). -/
theorem C73_released_partial (c : Call) (e : Env) (hc : isSheval2dfs c = false)
    (ht : makesTuple c = true → e.tuple = true) : ∃ s, c.run e = some s ∧ Released s := by
  obtain ⟨s, h1, h2⟩ := res_all c hc e ht
  exact ⟨s, h1, h2.1⟩

/-- **C73** (second part).  The call returns an object, or it returns null and has set an exception, never
both or neither.  Missing: the same, and flags which have no truth value (below). -/
theorem C73_result_or_exception_partial (c : Call) (e : Env) (hc : isSheval2dfs c = false)
    (ht : makesTuple c = true → e.tuple = true) (hf : flagsHaveTruthValue c = true) :
    ∃ s, c.run e = some s ∧ ResultOrException s := by
  obtain ⟨s, h1, h2⟩ := res_all c hc e ht
  exact ⟨s, h1, h2.2 (by rw [hf]; rfl)⟩

theorem run_of_map {α : Type} {c : Call} {e : Env} (g : St → α) {a : α}
    (h : (c.run e).map g = some a) : ∃ s, c.run e = some s ∧ g s = a := by
  cases hr : c.run e with
  | none => rw [hr] at h; cases h
  | some s => rw [hr] at h; exact ⟨s, rfl, Option.some.inj h⟩

/-- What Python sees of a call: whether it returned an object, and whether an exception is set -/
def seen (s : St) : Bool × Bool := (s.ret.isSome, s.exc)

theorem seen_both {s : St} (h : seen s = (true, true)) : ¬ ResultOrException s := by
  obtain ⟨h1, h2⟩ := Prod.mk.inj h
  intro q
  have := q.2 h2
  rw [this] at h1
  cases h1

/-- A call for which nothing fails gives a result; one whose first call fails gives an exception. -/
example : ∃ s, (Call.shevaltemp 2 .both none true).run allSucceed = some s ∧ seen s = (true, false) :=
  run_of_map seen (by decide +kernel)

example : ∃ s, (Call.shevaltemp 2 .both none true).run ⟨fun k => k ≠ 20, true⟩ = some s ∧
    seen s = (false, true) := run_of_map seen (by decide +kernel)

/-- **C73** (without memory for the tuple of the results).  The references to the arrays were given away
with `Py_BuildValue("NN", ...)`, which releases them also if it fails; the statements at the label release
them once more. -/
theorem C73_tuple_double_release (b : Bool) (f : Option Bool) :
    Call.legendre.run noTuple = none ∧ Call.evalSubsol.run noTuple = none ∧
    (Call.evalQdlatlon b true).run noTuple = none ∧ (Call.sheval .both f b).run noTuple = none ∧
    (Call.shevaltemp 1 .both f b).run noTuple = none ∧ (Call.sheval2dfs .both f b true).run noTuple = none := by
  have key : ∀ c : Call, (c.run noTuple).isNone = true → c.run noTuple = none :=
    fun c h => Option.isNone_iff_eq_none.1 h
  refine ⟨key _ (by decide +kernel), key _ (by decide +kernel), key _ ?_, key _ ?_, key _ ?_, key _ ?_⟩
  · revert b; decide +kernel
  · rcases f with _ | _ | _ <;> revert b <;> decide +kernel
  · rcases f with _ | _ | _ <;> revert b <;> decide +kernel
  · rcases f with _ | _ | _ <;> revert b <;> decide +kernel

/-- **C73** (flags without truth value).  `PyObject_IsTrue` gives -1 and sets an exception, the function
goes on and returns its result, with the exception set. -/
theorem C73_flag_without_truth_value (b : Bool) (m : Mode) :
    (∃ s, (Call.interp (some false)).run allSucceed = some s ∧ ¬ ResultOrException s) ∧
    (∃ s, (Call.relradpow (some false)).run allSucceed = some s ∧ ¬ ResultOrException s) ∧
    (∃ s, (Call.sphargrd (some false)).run allSucceed = some s ∧ ¬ ResultOrException s) ∧
    (∃ s, (Call.evalQdlatlon b false).run allSucceed = some s ∧ ¬ ResultOrException s) ∧
    (∃ s, (Call.sheval m (some false) b).run allSucceed = some s ∧ ¬ ResultOrException s) := by
  have key : ∀ {c : Call} {e : Env}, (c.run e).map seen = some (true, true) →
      ∃ s, c.run e = some s ∧ ¬ ResultOrException s := by
    intro c e h
    obtain ⟨s, h1, h2⟩ := run_of_map seen h
    exact ⟨s, h1, seen_both h2⟩
  refine ⟨key (by decide +kernel), key (by decide +kernel), key (by decide +kernel), key ?_, key ?_⟩
  · revert b; decide +kernel
  · cases m <;> revert b <;> decide +kernel

/-! ### `sheval2dfs` -/

theorem lost_of_lose {k : Nat} {s : St} (h : Released s) (hk : Lost true k s) : LostBlock (lose k s) := by
  have hr : (lose k s).ret = s.ret := rfl
  refine ⟨k, if_pos rfl, ?_, ?_⟩
  · rw [hr]
    intro q
    unfold Released at h
    rw [q] at h
    have h1 := h k
    rw [if_pos rfl, hk.2.1] at h1
    cases h1
  · intro j hj
    rw [hr]
    show (if j = k then some Kind.block else s.own j) = _
    rw [if_neg hj]
    unfold Released at h
    cases q : s.ret with
    | none => rw [q] at h; rw [if_neg (by simp)]; exact h j
    | some r =>
      rw [q] at h
      rw [h j]
      by_cases q' : j = r
      · rw [if_pos q', if_pos (by rw [q'])]
      · rw [if_neg q', if_neg (fun w => q' (Option.some.inj w).symm)]

theorem dfs_all (m : Mode) (f : Option Bool) (b : Bool) (e : Env) (ht : m = .both → e.tuple = true) :
    ∃ s, dfsAll m f b e St.init = .ok () s ∧ Released s := by
  have : Tr (decide (m = .both)) (I dfsVars dfsVars [] none false 0 0) (dfsAll m f b)
      (fun _ => CallDone true) (fun _ => False) := by
    cases m
    · exact res_dfsAll_pot _ f b
    · exact res_dfsAll_grd _ f b
    · exact res_dfsAll_both f b
  have := this e (by simpa using ht) St.init (I.init _)
  cases hm : dfsAll m f b e St.init with
  | ok a s => rw [hm] at this; exact ⟨s, rfl, this.1⟩
  | jump s => rw [hm] at this; exact this.elim
  | fault => rw [hm] at this; exact this.elim

theorem sheval2dfs_run {m : Mode} {f : Option Bool} {b p : Bool} {e : Env} {s : St}
    (h : sheval2dfs m f b p e St.init = .ok () s) : (Call.sheval2dfs m f b p).run e = some s := by
  show (match sheval2dfs m f b p e St.init with | .ok _ s => some s | .jump s => some s | .fault => none)
    = some s
  rw [h]

/-- With points: undefined behaviour, or the same as without -/
theorem sheval2dfs_run_points (m : Mode) (f : Option Bool) (b : Bool) (e : Env) :
    (Call.sheval2dfs m f b true).run e = none ∨
      (Call.sheval2dfs m f b true).run e = (Call.sheval2dfs m f b false).run e := by
  have hp : ∀ p, (Call.sheval2dfs m f b p).run e = match sheval2dfs m f b p e St.init with
      | .ok _ s => some s | .jump s => some s | .fault => none := fun _ => rfl
  rcases sheval2dfs_points m f b e St.init with q | q
  · left
    rw [hp, q]
  · right
    rw [hp, hp, q]

/-- **C73** (`sheval2dfs`).  Whatever fails, everything is released except at most one block of memory.
With points the behaviour can be undefined (below), otherwise it is as without points. -/
theorem C73_sheval2dfs_partial (m : Mode) (f : Option Bool) (b : Bool) (e : Env)
    (ht : m = .both → e.tuple = true) :
    ∃ s, (Call.sheval2dfs m f b false).run e = some s ∧ (Released s ∨ LostBlock s) ∧
      ((Call.sheval2dfs m f b true).run e = none ∨ (Call.sheval2dfs m f b true).run e = some s) := by
  obtain ⟨t, h1, h2⟩ := dfs_all m f b e ht
  have h3 := sheval2dfs_sim m f b e St.init St.init ⟨rfl, fun k hk => (hk rfl).elim⟩
  rw [h1] at h3
  obtain ⟨s, q1, q2, _⟩ := h3
  have hrun := sheval2dfs_run q1
  refine ⟨s, hrun, ?_, ?_⟩
  · rcases q2 with rfl | ⟨k, q2, rfl⟩
    · exact Or.inl h2
    · exact Or.inr (lost_of_lose h2 q2)
  · have := sheval2dfs_run_points m f b e
    rwa [hrun] at this

/-- **C73** (`sheval2dfs` loses memory).  Every call which ends without an exception loses a block of memory
(the field `offset` of the coefficients). -/
theorem C73_sheval2dfs_loses_memory (m : Mode) (f : Option Bool) (b p : Bool) (e : Env) (s : St)
    (ht : m = .both → e.tuple = true) (h : (Call.sheval2dfs m f b p).run e = some s) (hx : s.exc = false) :
    LostBlock s := by
  have h : (Call.sheval2dfs m f b false).run e = some s := by
    cases p
    · exact h
    · rcases sheval2dfs_run_points m f b e with q | q
      · rw [q] at h; cases h
      · rw [← q]; exact h
  obtain ⟨t, h1, h2⟩ := dfs_all m f b e ht
  have h3 := sheval2dfs_sim m f b e St.init St.init ⟨rfl, fun k hk => (hk rfl).elim⟩
  rw [h1] at h3
  obtain ⟨s', q1, q2, _⟩ := h3
  have hs : s' = s := by
    have := sheval2dfs_run q1
    rw [h] at this
    exact (Option.some.inj this).symm
  subst hs
  have htx : t.exc = false := by
    rcases q2 with rfl | ⟨k, _, rfl⟩
    · exact hx
    · exact hx
  have hb : DfsBody (decide (m = .both)) (do dfsStart f; ignoreResult f2dParseAll; dfsRest m b : M Unit) := by
    cases m
    · exact dfsBody_pot _ f b
    · exact dfsBody_grd _ f b
    · exact dfsBody_both f b
  have hb' := hb e (by simpa using ht) St.init (I.init _)
  obtain ⟨k, hk, hr⟩ := sheval2dfs_lost m f b (by
    revert hb'
    cases (do dfsStart f; ignoreResult f2dParseAll; dfsRest m b : M Unit) e St.init with
    | ok a t' => exact fun h => h
    | jump t' => exact fun h => h
    | fault => exact fun _ => trivial) h1 htx
  rw [hr] at q1
  cases q1
  exact lost_of_lose h2 hk

example (m : Mode) : ∃ s, (Call.sheval2dfs m none true true).run allSucceed = some s ∧
    seen s = (true, false) := by
  refine run_of_map seen ?_
  cases m <;> decide +kernel

/-- **C73** (`sheval2dfs` and wrong coefficients).  The function goes on if the coefficients are refused: with
points it uses the pointers which are null, without points it returns a result with the exception set. -/
theorem C73_sheval2dfs_ignores_error (m : Mode) (f : Option Bool) (b : Bool) :
    (Call.sheval2dfs m f b true).run ⟨fun k => k ≠ 12, true⟩ = none ∧
    ∃ s, (Call.sheval2dfs m f b false).run ⟨fun k => k ≠ 12, true⟩ = some s ∧ ¬ ResultOrException s := by
  constructor
  · refine Option.isNone_iff_eq_none.1 ?_
    rcases f with _ | _ | _ <;> cases m <;> revert b <;> decide +kernel
  · have key : ((Call.sheval2dfs m f b false).run ⟨fun k => k ≠ 12, true⟩).map seen = some (true, true) := by
      rcases f with _ | _ | _ <;> cases m <;> revert b <;> decide +kernel
    obtain ⟨s, h1, h2⟩ := run_of_map seen key
    exact ⟨s, h1, seen_both h2⟩

end Verif.Props
