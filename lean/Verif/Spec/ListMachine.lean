import Verif.Model.Py
import Verif.Spec.Chunk

/-!
# Specification: the container as a plain list with a "stale cursor" flag

The ideal container would be a plain list.  The real one raises on some
appends; the flag `stale` says exactly when.
-/

namespace Dt.Spec

/-- Client calls. -/
inductive Call (α : Type _) where
  | push (x : α)
  | get (i : Nat)
  | set (i : Nat) (v : α)
  | count
  /-- a read loop run to completion -/
  | readAll
  /-- a read loop abandoned after `k` further segments were requested -/
  | readSome (k : Nat)

/-- Results of client calls. -/
inductive Res (α : Type _) where
  | index (off full : Nat)
  | item (x : α)
  | unit
  | number (n : Nat)
  | pieces (ps : List (List α))
  deriving DecidableEq, Repr

/-- Specification state: the items, and whether the cursor is out of step. -/
structure LState (α : Type _) where
  items : List α
  stale : Bool

/-- One call on the specification.  `none`: subscript out of range (outside the
scope of the specification).  Only `push` can raise, and only if the cursor is
stale and the last segment is exactly full. -/
def LState.step {α : Type _} (sl : Nat) (st : LState α) :
    Call α → Option (Except Err (LState α × Res α))
  | .push x =>
      if st.stale ∧ st.items ≠ [] ∧ st.items.length % sl = 0 then some (.error .assertion)
      else some (.ok (⟨st.items ++ [x], st.stale⟩,
        .index (st.items.length % sl) st.items.length))
  | .get i => match st.items[i]? with
      | some x => some (.ok (st, .item x))
      | none => none
  | .set i v => if i < st.items.length then some (.ok (⟨st.items.set i v, st.stale⟩, .unit))
      else none
  | .count => some (.ok (st, .number st.items.length))
  | .readAll => some (.ok (⟨st.items, decide (st.items ≠ [])⟩, .pieces (chunk sl st.items)))
  | .readSome k => some (.ok (⟨st.items, decide (k ≠ (st.items.length - 1) / sl)⟩, .unit))

/-- A history of calls on the specification: the results so far and either the
final state or the error that ended the history. -/
def LState.run {α : Type _} (sl : Nat) :
    LState α → List (Call α) → Option (List (Res α) × Except Err (LState α))
  | st, [] => some ([], .ok st)
  | st, c :: cs =>
    match st.step sl c with
    | none => none
    | some (.error e) => some ([], .error e)
    | some (.ok (st', r)) =>
      match LState.run sl st' cs with
      | none => none
      | some (rs, f) => some (r :: rs, f)

/-- The ideal container: a plain list on which nothing raises. -/
def idealItems {α : Type _} : List α → List (Call α) → List α
  | xs, [] => xs
  | xs, .push x :: cs => idealItems (xs ++ [x]) cs
  | xs, .set i v :: cs => idealItems (xs.set i v) cs
  | xs, _ :: cs => idealItems xs cs

end Dt.Spec
