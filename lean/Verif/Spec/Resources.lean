import Verif.Model.Resources

/-!
# What a call must leave behind

The specification only looks at the state at the end of a call: what is still owned, the returned
pointer, and whether an exception is set.
-/

namespace Verif.Spec

open Verif.Res

/-- Everything acquired is released, except one reference to the returned object. -/
def Released (s : St) : Prop :=
  match s.ret with
  | none => ∀ k, s.own k = none
  | some r => ∀ k, s.own k = if k = r then some .ref else none

/-- The protocol of Python: either a result or an exception. -/
def ResultOrException (s : St) : Prop := s.ret = none ↔ s.exc = true

/-- Released except one block of memory, to which nothing points any more. -/
def LostBlock (s : St) : Prop :=
  ∃ k, s.own k = some .block ∧ s.ret ≠ some k ∧
    ∀ j, j ≠ k → s.own j = if s.ret = some j then some .ref else none

/-- Calls with more than one output array -/
def makesTuple : Call → Bool
  | .legendre | .evalSubsol | .evalQdlatlon _ _ => true
  | .sheval .both _ _ | .shevaltemp _ .both _ _ | .sheval2dfs .both _ _ _ => true
  | _ => false

/-- The optional flags given have a truth value (`bool(obj)` raises no exception). -/
def flagsHaveTruthValue : Call → Bool
  | .interp (some b) | .relradpow (some b) | .sphargrd (some b) | .sheval _ (some b) _ => b
  | .shevaltemp _ _ (some b) _ | .sheval2dfs _ (some b) _ _ => b
  | .evalQdlatlon _ b => b
  | _ => true

def isSheval2dfs : Call → Bool
  | .sheval2dfs .. => true
  | _ => false

/-- No call fails. -/
def allSucceed : Env := ⟨fun _ => true, true⟩

/-- Only the memory for the tuple of the results is missing. -/
def noTuple : Env := ⟨fun _ => true, false⟩

end Verif.Spec
