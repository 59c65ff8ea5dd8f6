import Verif.Model.SAP
import Mathlib.Algebra.Order.Field.Basic

/-!
# Model of the C++ container (`cpp/SegmentedArrayPair.h`, class `SegmentedArrayPair`)

The class is used for particle storage if `use_cpp_integrators` is True
(Particle_Module.py:326-364).  Its counters are `unsigned`.

Simplifications
* Counters are natural numbers; only the conversion in `set_number_of_items` is reduced modulo
  2^32 (increments cannot reach 2^32 before the memory is exhausted).
* A segment allocated by NumPy has arbitrary contents, here `junk`.
* A failing `assert` is `Err.abort`; an access outside of a vector or NumPy buffer, which the
  compiled code does not check, is `Err.ub`.
* `get_next_out_segment` returns a tuple of one element; the tuple is not modelled.
* `get_as_tuple`, `get_as_list` (504-541) are like `get_item`; `get_number_of_mbytes` (257-271) is
  not modelled.
-/

namespace Dt

/-- One array of the pair (SegmentedArrayPair.h:72-86). -/
structure CSA (α : Type) where
  segs : List (List α)
  fnf : Nat
  fao : Nat
  cur : Nat
  nseg : Nat
  deriving Repr, DecidableEq

/-- The object (SegmentedArrayPair.h:66-93). -/
structure CSAP (α : Type) where
  sl : Nat
  junk : α
  a0 : CSA α
  a1 : CSA α
  inSel : Bool
  outSel : Bool
  deriving Repr, DecidableEq

/-- Reading an element of a vector or a buffer without a bounds check. -/
def cGet {β : Type} (xs : List β) (i : Int) : Except Err β :=
  if 0 ≤ i then
    match xs[i.toNat]? with
    | some b => .ok b
    | none => .error .ub
  else .error .ub

/-- Writing an element. -/
def cSet {β : Type} (xs : List β) (i : Int) (v : β) : Except Err (List β) :=
  if 0 ≤ i then
    if i.toNat < xs.length then .ok (xs.set i.toNat v) else .error .ub
  else .error .ub

/-- Conversion of a `py::ssize_t` to `unsigned`. -/
def toUnsigned (i : Int) : Nat := (i % 4294967296).toNat

namespace CSAP
variable {α : Type}

def arr (s : CSAP α) (k : Bool) : CSA α := if k then s.a1 else s.a0

def setArr (s : CSAP α) (k : Bool) (a : CSA α) : CSAP α :=
  if k then { s with a1 := a } else { s with a0 := a }

def sel (s : CSAP α) : InOut → Bool
  | .In => s.inSel
  | .Out => s.outSel

/-- The constructor (SegmentedArrayPair.h:140-162). -/
def new (sl : Nat) (junk : α) : CSAP α :=
  let a : CSA α := { segs := [List.replicate sl junk], fnf := 0, fao := 0, cur := 0, nseg := 1 }
  { sl := sl, junk := junk, a0 := a, a1 := a, inSel := true, outSel := false }

/-- `add_segment` (SegmentedArrayPair.h:119-128). -/
def addSegment (sl : Nat) (junk : α) (a : CSA α) : CSA α :=
  { segs := a.segs ++ [List.replicate sl junk], fnf := a.fnf + 1, fao := 0, cur := a.cur,
    nseg := a.nseg + 1 }

/-- Choice of the slot by `push_back`, without the assertion
(SegmentedArrayPair.h:293-311, 362-377, 424-440). -/
def pushSlot (sl : Nat) (junk : α) (a : CSA α) : CSA α :=
  if a.fao = sl then
    let a1 := { a with cur := a.cur + 1 }
    if a1.cur < a1.nseg then { a1 with fnf := a1.fnf + 1, fao := 0 } else addSegment sl junk a1
  else a

/-- The assertion (SegmentedArrayPair.h:310) is inside the `if`. -/
def pushAssert (sl : Nat) (a a' : CSA α) : Bool := a.fao ≠ sl || a'.fnf = a'.cur

/-- Copy of the item and the returned pair (SegmentedArrayPair.h:313-339, 380-400, 442-454). -/
def pushStore (s : CSAP α) (a : CSA α) (item : α) : Except Err (CSAP α × (Int × Int)) := do
  let vec ← cGet a.segs a.fnf
  let vec' ← cSet vec a.fao item
  let segs' ← cSet a.segs a.fnf vec'
  let full : Int := a.fnf * s.sl + a.fao
  return (s.setArr s.outSel { a with segs := segs', fao := a.fao + 1 }, ((a.fao : Int), full))

/-- `push_back(array)` (SegmentedArrayPair.h:283-341). -/
def pushArray (s : CSAP α) (item : α) : Except Err (CSAP α × (Int × Int)) :=
  let a := s.arr s.outSel
  let a' := pushSlot s.sl s.junk a
  if pushAssert s.sl a a' then pushStore s a' item else .error .abort

/-- `push_back(tuple)` and `push_back(list)` (SegmentedArrayPair.h:352-455): no assertion. -/
def pushList (s : CSAP α) (item : α) : Except Err (CSAP α × (Int × Int)) :=
  pushStore s (pushSlot s.sl s.junk (s.arr s.outSel)) item

/-- `get_item(full_index)` (SegmentedArrayPair.h:484-495); `/` and `%` truncate towards 0. -/
def getItem (s : CSAP α) (i : Int) : Except Err α := do
  let vec ← cGet (s.arr s.outSel).segs (Int.tdiv i s.sl)
  cGet vec (Int.tmod i s.sl)

/-- `get_segment_and_offset` (SegmentedArrayPair.h:470-479): the whole segment. -/
def getSegmentAndOffset (s : CSAP α) (i : Int) : Except Err (List α × Int) := do
  let vec ← cGet (s.arr s.outSel).segs (Int.tdiv i s.sl)
  return (vec, Int.tmod i s.sl)

/-- `get_number_of_items` (SegmentedArrayPair.h:204-210). -/
def getNumberOfItems (s : CSAP α) : Int :=
  ((s.arr s.outSel).fnf : Int) * s.sl + (s.arr s.outSel).fao

/-- `set_number_of_items` (SegmentedArrayPair.h:221-243). -/
def setNumberOfItems (s : CSAP α) (io : InOut) (n : Int) : CSAP α :=
  let k := s.sel io
  let seg := Int.tdiv (n - 1) s.sl
  let offset := Int.tmod (n - 1) s.sl
  s.setArr k { s.arr k with fnf := toUnsigned seg, fao := toUnsigned (offset + 1) }

/-- `get_capacity` (SegmentedArrayPair.h:247-254). -/
def getCapacity (s : CSAP α) : Nat × Nat :=
  ((s.arr s.inSel).nseg * s.sl, (s.arr s.outSel).nseg * s.sl)

/-- `get_number_of_segments` (SegmentedArrayPair.h:192-199). -/
def getNumberOfSegments (s : CSAP α) : Nat × Nat := ((s.arr s.inSel).nseg, (s.arr s.outSel).nseg)

/-- `init_out_loop` (SegmentedArrayPair.h:555-597). -/
def initOutLoop (s : CSAP α) : CSAP α × (Int × Option View) :=
  let a := { s.arr s.outSel with cur := 0 }
  let s' := s.setArr s.outSel a
  if a.fnf = 0 then
    if a.fao = 0 then (s', (0, none)) else (s', (a.fao, some ⟨s.outSel, 0⟩))
  else (s', (s.sl, some ⟨s.outSel, 0⟩))

/-- `init_inout_loop` (SegmentedArrayPair.h:617-697); `swapPair` is always true. -/
def initInoutLoop (s : CSAP α) : CSAP α × (Int × Option (View × View)) :=
  let inSel := !s.inSel
  let outSel := !s.outSel
  let s1 := { s with a0 := { s.a0 with cur := 0 }, a1 := { s.a1 with cur := 0 } }
  let s2 := s1.setArr outSel { s1.arr outSel with fnf := 0, fao := 0 }
  let a := s2.arr inSel
  let s3 := { s2 with inSel := inSel, outSel := outSel }
  if a.fnf = 0 then
    if a.fao = 0 then (s2, (0, none)) else (s3, (a.fao, some (⟨inSel, 0⟩, ⟨outSel, 0⟩)))
  else (s3, (s.sl, some (⟨inSel, 0⟩, ⟨outSel, 0⟩)))

/-- `get_next_segment` (SegmentedArrayPair.h:710-762). -/
def getNextSegment (s : CSAP α) (io : InOut) : CSAP α × (Int × Option View) :=
  let k := s.sel io
  let a := { s.arr k with cur := (s.arr k).cur + 1 }
  let s' := s.setArr k a
  if a.cur > a.fnf then (s', (0, none))
  else if a.fnf = a.cur then
    if a.fao = 0 then (s', (0, none)) else (s', (a.fao, some ⟨k, a.cur⟩))
  else (s', (s.sl, some ⟨k, a.cur⟩))

/-- `get_next_out_segment` (SegmentedArrayPair.h:781-821). -/
def getNextOutSegment (s : CSAP α) : Except Err (CSAP α × View) :=
  let k := s.outSel
  let a : CSA α := { s.arr k with cur := (s.arr k).cur + 1 }
  let a1 : CSA α := if a.cur < a.nseg then
      (if a.fnf + 1 < a.nseg then { a with fnf := a.fnf + 1, fao := 0 } else a)
    else addSegment s.sl s.junk a
  if a1.fnf = a1.cur then do
    let _ ← cGet a1.segs a1.cur
    return (s.setArr k a1, ⟨k, a1.cur⟩)
  else .error .abort

/-- `get_full_index` (SegmentedArrayPair.h:847-860). -/
def getFullIndex (s : CSAP α) (indx : Int) (io : InOut) : Int :=
  ((s.arr (s.sel io)).cur : Int) * s.sl + indx

/-- `get_full_indices` (SegmentedArrayPair.h:871-882). -/
def getFullIndices (s : CSAP α) (iIn iOut : Int) : Int × Int :=
  (((s.arr s.inSel).cur : Int) * s.sl + iIn, ((s.arr s.outSel).cur : Int) * s.sl + iOut)

/-- The contents of a returned array: the whole segment (594, 695, 757, 818), not the first `n`
items. -/
def viewAll (s : CSAP α) (v : View) : Except Err (List α) := cGet (s.arr v.arr).segs v.seg

/-- Writing through a returned array. -/
def viewSet (s : CSAP α) (v : View) (i : Int) (x : α) : Except Err (CSAP α) := do
  let vec ← cGet (s.arr v.arr).segs v.seg
  let vec' ← cSet vec i x
  let segs' ← cSet (s.arr v.arr).segs v.seg vec'
  return s.setArr v.arr { s.arr v.arr with segs := segs' }

end CSAP

/-! ### Histories of calls on both containers -/

/-- A call of a method that both containers have, or an access through a returned array `v` that
was returned together with the number `n`. -/
inductive Method (α : Type) where
  | push (x : α)
  | get (i : Int)
  | count
  | capacity
  | segments
  | setNumber (io : InOut) (n : Int)
  | initOut
  | initInout
  | next (io : InOut)
  | nextOut
  | fullIndex (i : Int) (io : InOut)
  | fullIndices (i j : Int)
  | write (v : View) (n : Int) (i : Int) (x : α)
  /-- `pseg[0:n]` -/
  | readN (v : View) (n : Int)
  /-- `pseg` as a whole, e.g. `np_m.sum(pseg['weight'])` (Particle_Module.py:740) -/
  | readWhole (v : View) (n : Int)
  deriving DecidableEq, Repr

/-- What a call returns. -/
inductive Reply (α : Type) where
  | unit
  | int (i : Int)
  | pair (i j : Int)
  | item (x : α)
  | seg (n : Int) (v : Option View)
  | segs2 (n : Int) (v : Option (View × View))
  | items (xs : List α)
  deriving DecidableEq, Repr

variable {α : Type}

/-- The Python container: `pseg` is `segment[0:n]` (SegmentedArrayPair_Module.py:283, 345, 386). -/
def pyExec (s : SAP α) : Method α → Except Err (SAP α × Reply α)
  | .push x => do
    let (s', (i, j)) ← s.pushBack x
    return (s', .pair i j)
  | .get i => do
    let x ← s.getItem i
    return (s, .item x)
  | .count => return (s, .int s.getNumberOfItems)
  | .capacity => return (s, .pair s.getCapacity.1 s.getCapacity.2)
  | .segments => return (s, .pair s.getNumberOfSegments.1 s.getNumberOfSegments.2)
  | .setNumber io n => return (s.setNumberOfItems io n, .unit)
  | .initOut => return (s.initOutLoop.1, .seg s.initOutLoop.2.1 s.initOutLoop.2.2)
  | .initInout => return (s.initInoutLoop.1, .segs2 s.initInoutLoop.2.1 s.initInoutLoop.2.2)
  | .next io => return ((s.getNextSegment io).1, .seg (s.getNextSegment io).2.1
      (s.getNextSegment io).2.2)
  | .nextOut => do
    let (s', v) ← s.getNextOutSegment
    return (s', .seg s.sl (some v))
  | .fullIndex i io => return (s, .int (s.getFullIndex i io))
  | .fullIndices i j => return (s, .pair (s.getFullIndices i j).1 (s.getFullIndices i j).2)
  | .write v n i x =>
    if i < n then do
      let s' ← s.viewSet v i x
      return (s', .unit)
    else .error .index
  | .readN v n => do
    let xs ← s.viewItems v n
    return (s, .items xs)
  | .readWhole v n => do
    let xs ← s.viewItems v n
    return (s, .items xs)

/-- The C++ container; `pushB` is one of the overloads of `push_back`. -/
def cppExec (pushB : CSAP α → α → Except Err (CSAP α × (Int × Int))) (s : CSAP α) :
    Method α → Except Err (CSAP α × Reply α)
  | .push x => do
    let (s', (i, j)) ← pushB s x
    return (s', .pair i j)
  | .get i => do
    let x ← s.getItem i
    return (s, .item x)
  | .count => return (s, .int s.getNumberOfItems)
  | .capacity => return (s, .pair s.getCapacity.1 s.getCapacity.2)
  | .segments => return (s, .pair s.getNumberOfSegments.1 s.getNumberOfSegments.2)
  | .setNumber io n => return (s.setNumberOfItems io n, .unit)
  | .initOut => return (s.initOutLoop.1, .seg s.initOutLoop.2.1 s.initOutLoop.2.2)
  | .initInout => return (s.initInoutLoop.1, .segs2 s.initInoutLoop.2.1 s.initInoutLoop.2.2)
  | .next io => return ((s.getNextSegment io).1, .seg (s.getNextSegment io).2.1
      (s.getNextSegment io).2.2)
  | .nextOut => do
    let (s', v) ← s.getNextOutSegment
    return (s', .seg s.sl (some v))
  | .fullIndex i io => return (s, .int (s.getFullIndex i io))
  | .fullIndices i j => return (s, .pair (s.getFullIndices i j).1 (s.getFullIndices i j).2)
  | .write v _ i x => do
    let s' ← s.viewSet v i x
    return (s', .unit)
  | .readN v n => do
    let xs ← s.viewAll v
    return (s, .items (pySlice0 xs n))
  | .readWhole v _ => do
    let xs ← s.viewAll v
    return (s, .items xs)

/-- A history; the replies up to the first failure, and the final state or the failure. -/
def runHist {S : Type} (exec : S → Method α → Except Err (S × Reply α)) :
    S → List (Method α) → List (Reply α) × Except Err S
  | s, [] => ([], .ok s)
  | s, m :: ms =>
    match exec s m with
    | .error e => ([], .error e)
    | .ok (s', r) => let (rs, f) := runHist exec s' ms; (r :: rs, f)

end Dt

namespace Dt
namespace CSAP
variable {α : Type}

/-- The loop `(npSeg, pseg) = sap.init_out_loop(); while isinstance(pseg, np_m.ndarray): ...` of
Particle_Module.py on the C++ container, collecting the arrays `pseg` (whole segments).  `fuel`
bounds the number of segments. -/
def wholePieces : Nat → CSAP α → Option View → Except Err (CSAP α × List (List α))
  | _, s, none => .ok (s, [])
  | 0, _, some _ => .error .fuel
  | fuel + 1, s, some v => do
    let piece ← s.viewAll v
    let (s', (_, v')) := s.getNextSegment .Out
    let (s'', rest) ← wholePieces fuel s' v'
    return (s'', piece :: rest)

def wholeLoop (s : CSAP α) : Except Err (CSAP α × List (List α)) :=
  wholePieces ((s.arr s.outSel).nseg + 1) s.initOutLoop.1 s.initOutLoop.2.2

/-- `get_species_number` (Particle_Module.py:722-747) with C++ storage: `np_m.sum(pseg['weight'])`
takes all of `pseg`. -/
def getSpeciesNumber {K : Type} [AddCommMonoid K] (weight : α → K) (s : CSAP α) :
    Except Err (CSAP α × K) := do
  let (s', ps) ← s.wholeLoop
  return (s', ps.foldl (fun acc p => acc + (p.map weight).sum) 0)

/-- `get_species_KE` (Particle_Module.py:785-812) with C++ storage. -/
def getSpeciesKE {K : Type} [Field K] (weight : α → K) (vel : List (α → K)) (mass : K)
    (s : CSAP α) : Except Err (CSAP α × K) := do
  let (s', ps) ← s.wholeLoop
  return (s', ps.foldl (fun acc p =>
    vel.foldl (fun acc u => acc + (p.map (fun p => weight p * u p ^ 2)).sum) acc) 0 *
      ((1 / 2) * mass))

end CSAP
end Dt
