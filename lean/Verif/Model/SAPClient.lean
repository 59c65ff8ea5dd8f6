import Verif.Model.SAP
import Verif.Spec.ListMachine

/-! # Driving the modelled container with a history of client calls -/

namespace Dt
namespace SAP
open Spec (Call Res)

/-- One client call on the container model.  The methods are those of
`SegmentedArrayPair_Module.py` modelled in `Verif/Model/SAP.lean`. -/
def call {α : Type _} (s : SAP α) : Call α → Except Err (SAP α × Res α)
  | .push x => do
      let (s', (o, f)) ← s.pushBack x
      return (s', .index o.toNat f.toNat)
  | .get i => do
      let x ← s.getItem i
      return (s, .item x)
  | .set i v => do
      let s' ← s.setItem i v
      return (s', .unit)
  | .count => return (s, .number s.getNumberOfItems.toNat)
  | .readAll => do
      let (s', ps) ← s.readLoop
      return (s', .pieces ps)
  | .readSome k => return (s.readLoopAbandoned k, .unit)

/-- A history of calls; stops at the first exception. -/
def runCalls {α : Type _} : SAP α → List (Call α) → List (Res α) × Except Err (SAP α)
  | s, [] => ([], .ok s)
  | s, c :: cs =>
    match s.call c with
    | .error e => ([], .error e)
    | .ok (s', r) => let (rs, f) := runCalls s' cs; (r :: rs, f)

end SAP
end Dt
