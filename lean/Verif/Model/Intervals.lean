/-
Model of the validity interval algorithms.
Source: eoxmagmod/eoxmagmod/magnetic_model/util.py

Times are elements of a linear order (NaN is not modelled).  The three parallel
lists `starts`, `ends`, `items` are modelled by one list of triples, because the
code only changes them together.
-/
import Mathlib.Order.Defs.LinearOrder
import Mathlib.Order.BoundedOrder.Basic

namespace Verif.Intervals

variable {T O : Type} [LinearOrder T]

/-- `((start, end), obj)` -/
structure Iv (T O : Type) where
  s : T
  e : T
  o : O

/-- `bisect_right(ends, x)` of the Python standard library on an ascending list: the
number of leading items which are not greater than `x` (external code, its
documented contract is used). -/
def bisectRightEnds (acc : List (Iv T O)) (x : T) : Nat :=
  (acc.takeWhile (fun i => decide (i.e ≤ x))).length

/-- `_insert`, util.py lines 138-141. -/
def insertAt (acc : List (Iv T O)) (idx : Nat) (s e : T) (o : O) : List (Iv T O) :=
  acc.take idx ++ ⟨s, e, o⟩ :: acc.drop idx

/-- The `while start < end` loop, util.py lines 147-159, run for at most `fuel`
passes; `none` when they do not suffice (or an index does not exist). -/
def loop (en : T) (o : O) : Nat → List (Iv T O) → T → Option (List (Iv T O))
  | 0, _, _ => none
  | fuel + 1, acc, start =>
    if start < en then
      let idx := bisectRightEnds acc start
      if idx = acc.length then                                  -- line 149
        if idx = 0 then some (insertAt acc idx start en o)
        else match acc[idx - 1]? with
          | none => none
          | some last =>
            if last.e < en then some (insertAt acc idx start en o) else some acc
      else match acc[idx]? with
        | none => none
        | some cur =>
          if cur.s > start then                                 -- line 153
            if cur.s ≥ en then some (insertAt acc idx start en o)
            else
              let acc' := insertAt acc idx start cur.s o        -- line 157
              match acc'[idx + 1]? with
              | none => none
              | some nxt => loop en o fuel acc' nxt.e           -- line 159
          else loop en o fuel acc cur.e
    else some acc

/-- One pass of the `for` loop, util.py lines 143-159. -/
def addInterval (acc : List (Iv T O)) (i : Iv T O) : Option (List (Iv T O)) :=
  if i.s > i.e then some acc
  else loop i.e i.o (acc.length + 1) acc i.s

/-- `get_nonoverlapping_intervals`, util.py lines 126-161. -/
def nonOverlapping (ivs : List (Iv T O)) : Option (List (Iv T O)) :=
  ivs.foldlM addInterval []

/-- `_intersect`, util.py lines 187-190. -/
def intersect (s1 e1 s0 e0 : T) : Option (T × T) :=
  if s1 ≤ e0 ∧ s0 ≤ e1 then some (max s1 s0, min e1 e0) else none

/-- The `while True` loop of `aggregate_intersected_intervals`, util.py lines
196-206; `a`, `b` are the current interval of the aggregates and of `intervals0`,
`as`, `bs` what is left in the iterators. -/
def aggLoop (a : Iv T (List O)) (as : List (Iv T (List O))) (b : Iv T O) (bs : List (Iv T O)) :
    List (Iv T (List O)) :=
  let hd := match intersect a.s a.e b.s b.e with
    | some (s, e) => [⟨s, e, a.o ++ [b.o]⟩]
    | none => []
  if b.e < a.e then
    match bs with
    | [] => hd
    | b' :: bs' => hd ++ aggLoop a as b' bs'
  else
    match as with
    | [] => hd
    | a' :: as' => hd ++ aggLoop a' as' b bs
termination_by as.length + bs.length

/-- `aggregate_intersected_intervals(intervals0, aggregates)`, util.py lines 164-209. -/
def aggregate (ivs : List (Iv T O)) (aggs : List (Iv T (List O))) : List (Iv T (List O)) :=
  match aggs, ivs with
  | a :: as, b :: bs => aggLoop a as b bs
  | _, _ => []

/-- The same with `aggregates=None`, lines 177-178. -/
def aggregateNone [BoundedOrder T] (ivs : List (Iv T O)) : List (Iv T (List O)) :=
  aggregate ivs [⟨⊥, ⊤, []⟩]

end Verif.Intervals
