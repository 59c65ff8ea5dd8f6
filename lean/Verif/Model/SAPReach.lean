import Verif.Model.SAP

/-!
# Container states reachable through the public methods

The only restriction is on `set_number_of_items`: the declared number is
between 1 and the capacity of the array concerned.  (For 0 see the theorems on
`set_number_of_items` in `Verif/Props/Storage.lean`.)
-/

namespace Dt
namespace SAP

/-- States that a client can produce by calling the methods of
`SegmentedArrayPair_C` in any order and by writing through returned segments.
A call that raises produces no state. -/
inductive Reachable {α : Type _} : SAP α → Prop
  | new (sl : Nat) (junk : α) (h : 0 < sl) : Reachable (SAP.new sl junk)
  | push {s s' : SAP α} {x : α} {r : Int × Int} (h : Reachable s)
      (e : s.pushBack x = .ok (s', r)) : Reachable s'
  | setItem {s s' : SAP α} {i : Int} {v : α} (h : Reachable s)
      (e : s.setItem i v = .ok s') : Reachable s'
  | initOut {s : SAP α} (h : Reachable s) : Reachable s.initOutLoop.1
  | initInout {s : SAP α} (h : Reachable s) : Reachable s.initInoutLoop.1
  | next {s : SAP α} (io : InOut) (h : Reachable s) : Reachable (s.getNextSegment io).1
  | nextOut {s s' : SAP α} {v : View} (h : Reachable s)
      (e : s.getNextOutSegment = .ok (s', v)) : Reachable s'
  | setNumber {s : SAP α} (io : InOut) (n : Nat) (h : Reachable s) (h1 : 1 ≤ n)
      (h2 : n ≤ (s.arr (s.sel io)).nseg * s.sl) : Reachable (s.setNumberOfItems io n)
  | viewSet {s s' : SAP α} {v : View} {i : Int} {x : α} (h : Reachable s)
      (e : s.viewSet v i x = .ok s') : Reachable s'

end SAP
end Dt
