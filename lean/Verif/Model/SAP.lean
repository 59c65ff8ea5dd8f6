import Verif.Model.Py

/-!
# Model of `SegmentedArrayPair_Module.py` (class `SegmentedArrayPair_C`)

A pair of segmented arrays, addressed by the integers 0 and 1 in the source
and by `Bool` here (`false` = 0, `true` = 1); `(k+1) % 2` becomes `!k`.

Simplifications
* `np_m.empty` gives unspecified contents; here every slot of a new segment
  holds the (arbitrary) value `junk`.
* The member `npmax` is only ever assigned (never read) and is omitted;
  `get_capacity` recomputes it.
* `compress` (528-543, refers to undefined names), `get_number_of_mbytes`
  (510-525) are not modelled.
-/

namespace Dt

/-- One of the two segmented arrays: its list of segments and its counters
(`seg_list_pair[k]`, `first_not_full_segment[k]`, `first_available_offset[k]`,
`current_segment[k]`, `nseg[k]`; SegmentedArrayPair_Module.py:57-78).
The counters are Python ints, which can be negative. -/
structure SA (α : Type _) where
  segs : List (List α)
  fnf : Int
  fao : Int
  cur : Int
  nseg : Nat
  deriving Repr, DecidableEq

/-- The container object. `inSel`/`outSel` are `in_segmented_array` and
`out_segmented_array` (SegmentedArrayPair_Module.py:80-81). -/
structure SAP (α : Type _) where
  sl : Nat
  junk : α
  a0 : SA α
  a1 : SA α
  inSel : Bool
  outSel : Bool
  deriving Repr, DecidableEq

/-- The "in"/"out" string argument of several methods. -/
inductive InOut where
  | In
  | Out
  deriving DecidableEq, Repr

/-- A NumPy array (view) handed out by the container: array number and segment
number.  The number of visible items travels separately. -/
structure View where
  arr : Bool
  seg : Int
  deriving DecidableEq, Repr

namespace SAP

variable {α : Type _}

/-- The array numbered `k`. -/
def arr (s : SAP α) (k : Bool) : SA α := if k then s.a1 else s.a0

/-- Replace the array numbered `k`. -/
def setArr (s : SAP α) (k : Bool) (a : SA α) : SAP α :=
  if k then { s with a1 := a } else { s with a0 := a }

/-- The array number meant by "in"/"out"
(e.g. SegmentedArrayPair_Module.py:362-365). -/
def sel (s : SAP α) : InOut → Bool
  | .In => s.inSel
  | .Out => s.outSel

/-- The "out" array. -/
def outA (s : SAP α) : SA α := s.arr s.outSel
/-- The "in" array. -/
def inA (s : SAP α) : SA α := s.arr s.inSel

/-- A fresh segment, `np_m.empty(segment_length)`. -/
def newSeg (sl : Nat) (junk : α) : List α := List.replicate sl junk

/-- `__init__` (SegmentedArrayPair_Module.py:43-82). -/
def new (sl : Nat) (junk : α) : SAP α :=
  let a : SA α := { segs := [newSeg sl junk], fnf := 0, fao := 0, cur := 0, nseg := 1 }
  { sl := sl, junk := junk, a0 := a, a1 := a, inSel := true, outSel := false }

/-- `add_segment(theSA)` (SegmentedArrayPair_Module.py:224-245), on the array
concerned. -/
def addSegment (sl : Nat) (junk : α) (a : SA α) : SA α :=
  { a with nseg := a.nseg + 1
           segs := a.segs ++ [newSeg sl junk]
           fnf := a.fnf + 1
           fao := 0 }

/-- Store through two subscripts: `seg_list[seg][off] = v`. -/
def store (a : SA α) (seg off : Int) (v : α) : Except Err (SA α) := do
  let vec ← pyGet a.segs seg
  let vec' ← pySet vec off v
  let segs' ← pySet a.segs seg vec'
  return { a with segs := segs' }

/-- Read through two subscripts: `seg_list[seg][off]`. -/
def load (a : SA α) (seg off : Int) : Except Err α := do
  let vec ← pyGet a.segs seg
  pyGet vec off

/-- The segment-switching prologue of `push_back`
(SegmentedArrayPair_Module.py:108-123), on the "out" array. -/
def pushPrologue (sl : Nat) (junk : α) (a : SA α) : Except Err (SA α) :=
  if a.fao = sl then
    let a1 := { a with cur := a.cur + 1 }
    let a2 := if a1.cur < a1.nseg then { a1 with fnf := a1.fnf + 1, fao := 0 }
              else addSegment sl junk a1
    if a2.fnf = a2.cur then .ok a2 else .error .assertion
  else .ok a

/-- `push_back(item)` (SegmentedArrayPair_Module.py:85-141).
Returns the new container and the pair (offset in segment, full index). -/
def pushBack (s : SAP α) (item : α) : Except Err (SAP α × (Int × Int)) := do
  let a ← pushPrologue s.sl s.junk s.outA
  let a' ← store a a.fnf a.fao item
  let fullIndex := a'.fnf * s.sl + a'.fao
  let a'' := { a' with fao := a'.fao + 1 }
  return (s.setArr s.outSel a'', (a''.fao - 1, fullIndex))

/-- `get_segment_and_offset(i)` (SegmentedArrayPair_Module.py:145-160); the
first component is the segment (a list). -/
def getSegmentAndOffset (s : SAP α) (i : Int) : Except Err (List α × Int) := do
  let (seg, off) := pyDivmod i s.sl
  let vec ← pyGet s.outA.segs seg
  return (vec, off)

/-- `get_item(i)` and `__getitem__(i)`
(SegmentedArrayPair_Module.py:164-178, 182-202; identical bodies). -/
def getItem (s : SAP α) (i : Int) : Except Err α :=
  let (seg, off) := pyDivmod i s.sl
  load s.outA seg off

/-- `__setitem__(i, value)` (SegmentedArrayPair_Module.py:205-221). -/
def setItem (s : SAP α) (i : Int) (v : α) : Except Err (SAP α) := do
  let (seg, off) := pyDivmod i s.sl
  let a ← store s.outA seg off v
  return s.setArr s.outSel a

/-- Number of items in the first segment as computed at the start of loops
(SegmentedArrayPair_Module.py:270-281, 322-334). -/
def firstCount (sl : Nat) (a : SA α) : Int := if a.fnf = 0 then a.fao else sl

/-- `init_out_loop()` (SegmentedArrayPair_Module.py:248-283). -/
def initOutLoop (s : SAP α) : SAP α × (Int × Option View) :=
  let a := { s.outA with cur := 0 }
  let s' := s.setArr s.outSel a
  if a.fnf = 0 ∧ a.fao = 0 then (s', (0, none))
  else (s', (firstCount s.sl a, some ⟨s.outSel, 0⟩))

/-- `init_inout_loop()` (SegmentedArrayPair_Module.py:287-346).  On the empty
path the exchanged selectors are not stored. -/
def initInoutLoop (s : SAP α) : SAP α × (Int × Option (View × View)) :=
  let inSel := !s.inSel
  let outSel := !s.outSel
  let s1 := { s with a0 := { s.a0 with cur := 0 }, a1 := { s.a1 with cur := 0 } }
  let s2 := s1.setArr outSel { s1.arr outSel with fnf := 0, fao := 0 }
  let a := s2.arr inSel
  if a.fnf = 0 ∧ a.fao = 0 then (s2, (0, none))
  else ({ s2 with inSel := inSel, outSel := outSel },
        (firstCount s.sl a, some (⟨inSel, 0⟩, ⟨outSel, 0⟩)))

/-- `get_next_segment(InOut)` (SegmentedArrayPair_Module.py:350-386). -/
def getNextSegment (s : SAP α) (io : InOut) : SAP α × (Int × Option View) :=
  let k := s.sel io
  let a := { s.arr k with cur := (s.arr k).cur + 1 }
  let s' := s.setArr k a
  if a.fnf < a.cur then (s', (0, none))
  else if a.fnf = a.cur then
    if a.fao = 0 then (s', (0, none)) else (s', (a.fao, some ⟨k, a.cur⟩))
  else (s', (s.sl, some ⟨k, a.cur⟩))

/-- Counter updates of `get_next_out_segment()`
(SegmentedArrayPair_Module.py:408-423). -/
def nextOutPrologue (sl : Nat) (junk : α) (a0 : SA α) : SA α :=
  let a := { a0 with cur := a0.cur + 1 }
  if a.cur < (a.nseg : Int) then
    (if a.fnf + 1 < (a.nseg : Int) then { a with fnf := a.fnf + 1, fao := 0 } else a)
  else addSegment sl junk a

/-- `get_next_out_segment()` (SegmentedArrayPair_Module.py:390-427). -/
def getNextOutSegment (s : SAP α) : Except Err (SAP α × View) := do
  let k := s.outSel
  let a1 := nextOutPrologue s.sl s.junk s.outA
  if a1.fnf = a1.cur then
    let _ ← pyGet a1.segs a1.cur
    return (s.setArr k a1, ⟨k, a1.cur⟩)
  else throw .assertion

/-- `get_current_out_segment()` (SegmentedArrayPair_Module.py:431-442). -/
def getCurrentOutSegment (s : SAP α) : View := ⟨s.outSel, s.outA.cur⟩

/-- `get_number_of_segments()` (SegmentedArrayPair_Module.py:446-455). -/
def getNumberOfSegments (s : SAP α) : Nat × Nat := (s.inA.nseg, s.outA.nseg)

/-- `get_number_of_items()` (SegmentedArrayPair_Module.py:458-468). -/
def getNumberOfItems (s : SAP α) : Int := s.outA.fnf * s.sl + s.outA.fao

/-- `set_number_of_items(InOut, n)` (SegmentedArrayPair_Module.py:471-496). -/
def setNumberOfItems (s : SAP α) (io : InOut) (n : Int) : SAP α :=
  let k := s.sel io
  let (seg, off) := pyDivmod (n - 1) s.sl
  s.setArr k { s.arr k with fnf := seg, fao := off + 1 }

/-- `get_capacity()` (SegmentedArrayPair_Module.py:499-507): (in, out). -/
def getCapacity (s : SAP α) : Nat × Nat := (s.inA.nseg * s.sl, s.outA.nseg * s.sl)

/-- `get_full_index(indx, InOut)` (SegmentedArrayPair_Module.py:548-566). -/
def getFullIndex (s : SAP α) (indx : Int) (io : InOut) : Int :=
  (s.arr (s.sel io)).cur * s.sl + indx

/-- `get_full_indices(i_in, i_out)` (SegmentedArrayPair_Module.py:570-588). -/
def getFullIndices (s : SAP α) (iIn iOut : Int) : Int × Int :=
  (s.inA.cur * s.sl + iIn, s.outA.cur * s.sl + iOut)

/-- Subscripting a view: `pseg[i]`. The view returned by the container refers
to `seg_list_pair[arr][seg]` (`seg` is never negative for returned views). -/
def viewGet (s : SAP α) (v : View) (i : Int) : Except Err α :=
  load (s.arr v.arr) v.seg i

/-- Assigning through a view: `pseg[i] = x`. -/
def viewSet (s : SAP α) (v : View) (i : Int) (x : α) : Except Err (SAP α) := do
  let a ← store (s.arr v.arr) v.seg i x
  return s.setArr v.arr a

/-- The items visible through a view with `n` items, `segment[0:n]`. -/
def viewItems (s : SAP α) (v : View) (n : Int) : Except Err (List α) := do
  let vec ← pyGet (s.arr v.arr).segs v.seg
  return pySlice0 vec n

/-- The client's `while isinstance(pseg, np.ndarray): ...;
(npSeg, pseg) = sap.get_next_segment("out")` loop, collecting the pieces
(e.g. Particle_Module.py:797-806).  `fuel` bounds the number of iterations. -/
def readPieces : Nat → SAP α → Int → Option View → Except Err (SAP α × List (List α))
  | _, s, _, none => .ok (s, [])
  | 0, _, _, some _ => .error .fuel
  | fuel + 1, s, n, some v => do
    let piece ← s.viewItems v n
    let (s', (n', v')) := s.getNextSegment .Out
    let (s'', rest) ← readPieces fuel s' n' v'
    return (s'', piece :: rest)

/-- A complete read loop over the "out" array. -/
def readLoop (s : SAP α) : Except Err (SAP α × List (List α)) :=
  let (s', (n, v)) := s.initOutLoop
  readPieces (s.outA.nseg + 1) s' n v

/-- A read loop abandoned after at most `k` further segments have been
requested. -/
def readLoopAbandoned (s : SAP α) (k : Nat) : SAP α :=
  let (s', _) := s.initOutLoop
  (List.range k).foldl (fun t _ => (t.getNextSegment .Out).1) s'

/-- A sequence of `push_back` calls, stopping at the first exception. -/
def pushAll (s : SAP α) : List α → Except Err (SAP α × List (Int × Int))
  | [] => .ok (s, [])
  | x :: xs => do
    let (s', r) ← s.pushBack x
    let (s'', rs) ← s'.pushAll xs
    return (s'', r :: rs)

end SAP
end Dt
