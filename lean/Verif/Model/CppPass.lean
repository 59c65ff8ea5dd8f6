import Verif.Model.CppSAP
import Verif.Model.Mover

/-!
# Model of the storage side of the compiled particle movers

The C++ movers

* `advance_charged_species_in_E_field` (cpp/advance_charged_species_in_E_field_cartesian_x.cpp:137-556,
  ..._cartesian_xy.cpp:106-506, ..._spherical_r.cpp:138-563),
* `advance_neutral_species` (cpp/advance_neutral_species_cartesian_xy.cpp:56-362,
  ..._cartesian_xyz.cpp:72-386),
* `advance_charged_species_in_uniform_fields`
  (cpp/advance_charged_species_in_uniform_fields_cartesian_xyz.cpp:49-186)

run one loop over the "in" and "out" arrays of the C++ container.  `cppPass` is that loop; what
happens to one particle is the argument `adv`, with the same meaning as in `Verif.Model.Mover`.

`skip` is the test at the start of the neutral movers' loop (..._xy.cpp:101-106,
..._xyz.cpp:117-122); the charged movers have no such test (`skip := fun _ => false`).

Simplifications
* As in `Verif.Model.Mover`: the record is written to the "out" slot after `adv`.
* The pointers `psegIn`, `psegOut` are views (array, segment number).
* `segTuple[1].cast<py::capsule>()` raises TypeError if the tuple contains None.
-/

namespace Dt

/-- Local variables of a compiled pass (..._cartesian_x.cpp:171-178). -/
structure CPass (σ α : Type) where
  s : CSAP α
  vout : View
  ipOut : Nat
  count : Nat
  indexChange : Bool
  st : σ

namespace CppMover
variable {σ α : Type}

/-- `psegIn[ipIn]`. -/
def viewGet (s : CSAP α) (v : View) (i : Int) : Except Err α := do
  let vec ← cGet (s.arr v.arr).segs v.seg
  cGet vec i

/-- "If this "out" segment is full, get the next "out" segment"
(..._cartesian_x.cpp:246-266; neutral ..._xyz.cpp:127-144; uniform ..._xyz.cpp:110-127). -/
def nextOut (ps : CPass σ α) : Except Err (CPass σ α) :=
  if ps.ipOut = ps.s.sl then do
    let (s', v) ← ps.s.getNextOutSegment
    return { ps with s := s', vout := v, ipOut := 0 }
  else .ok ps

/-- "Check if we've reached the end of this segment"
(..._cartesian_x.cpp:517-520; neutral ..._xyz.cpp:349-352; uniform ..._xyz.cpp:150-153). -/
def countFull (ps : CPass σ α) : CPass σ α :=
  if ps.ipOut = ps.s.sl then { ps with count := ps.count + ps.s.sl } else ps

/-- The body of the loop on particles after the test `skip` (..._cartesian_x.cpp:241-520). -/
def moveKept (adv : Adv σ α) (p : α) (ipIn : Nat) (ps0 : CPass σ α) :
    Except Err (CPass σ α) := do
  let ps ← nextOut ps0
  let (iIn, iOut) := ps.s.getFullIndices ipIn ps.ipOut
  let (st', p', keep) ← adv ps.st iIn iOut ps.indexChange p
  let s' ← ps.s.viewSet ps.vout ps.ipOut p'
  if keep then
    return countFull { ps with s := s', st := st', ipOut := ps.ipOut + 1 }
  else
    return countFull { ps with s := s', st := st', indexChange := true }

/-- The body of the loop on particles (neutral ..._xyz.cpp:115-353). -/
def moveOne (skip : α → Bool) (adv : Adv σ α) (vin : View) (ipIn : Nat) (ps0 : CPass σ α) :
    Except Err (CPass σ α) := do
  let p ← viewGet ps0.s vin ipIn
  if skip p then return { ps0 with indexChange := true }
  else moveKept adv p ipIn ps0

/-- `for (auto ipIn = 0; ipIn < npSeg; ipIn++)` (..._cartesian_x.cpp:240). -/
def moveItems (skip : α → Bool) (adv : Adv σ α) (vin : View) :
    Nat → Nat → CPass σ α → Except Err (CPass σ α)
  | 0, _, ps => .ok ps
  | k + 1, ip, ps => do
    let ps' ← moveOne skip adv vin ip ps
    moveItems skip adv vin k (ip + 1) ps'

/-- `while (psegIn != nullptr)` (..._cartesian_x.cpp:180-548).  `fuel` bounds the number of
segments. -/
def moveSegs (skip : α → Bool) (adv : Adv σ α) :
    Nat → Int → Option View → CPass σ α → Except Err (CPass σ α)
  | _, _, none, ps => .ok ps
  | 0, _, some _, _ => .error .fuel
  | fuel + 1, n, some vin, ps => do
    let ps1 ← moveItems skip adv vin n.toNat 0 ps
    let (s', (n', v')) := ps1.s.getNextSegment .In
    moveSegs skip adv fuel n' v' { ps1 with s := s' }

/-- A complete pass over one species, from `init_inout_loop` to `set_number_of_items`. -/
def cppPass (skip : α → Bool) (adv : Adv σ α) (s : CSAP α) (st : σ) :
    Except Err (CSAP α × σ) :=
  match s.initInoutLoop with
  | (s1, (n, some (vin, vout))) => do
    let ps ← moveSegs skip adv ((s.arr s.outSel).nseg + 1) n (some vin)
      { s := s1, vout := vout, ipOut := 0, count := 0, indexChange := false, st := st }
    let c := if ps.ipOut ≠ ps.s.sl then ps.count + ps.ipOut else ps.count
    return (ps.s.setNumberOfItems .Out (c : Int), ps.st)
  | (_, (_, none)) => .error .type

/-- The species-level guard of the callers (Particle_Module.py:1402, 1866). -/
def cppStep (skip : α → Bool) (adv : Adv σ α) (s : CSAP α) (st : σ) :
    Except Err (CSAP α × σ) :=
  if s.getNumberOfItems = 0 then .ok (s, st) else cppPass skip adv s st

/-- Consecutive time steps of one species. -/
def cppSteps (skip : α → Bool) : List (Adv σ α) → CSAP α → σ → Except Err (CSAP α × σ)
  | [], s, st => .ok (s, st)
  | adv :: advs, s, st => do
    let (s', st') ← cppStep skip adv s st
    cppSteps skip advs s' st'

/-- `advance_charged_species_in_uniform_fields`
(cpp/advance_charged_species_in_uniform_fields_cartesian_xyz.cpp:21-187): every particle is moved
and kept.  It is called directly by user code, which must leave out species
without particles (tests/unit/test_cpp_ParticleUniformE.py:205-208). -/
def cppUniform (move : α → α) (s : CSAP α) : Except Err (CSAP α) := do
  let (s', _) ← cppPass (fun _ => false) (fun (_ : Unit) _ _ _ p => .ok ((), move p, true)) s ()
  return s'

end CppMover
end Dt

namespace Dt
namespace CppMover
variable {α : Type}

/-- The states of the compiled container of a species in a run: created with segment length at
least 2, particles appended, segments read in a loop and written through, mover passes in between.
A call that fails produces no state. -/
inductive Used : CSAP α → Prop
  | new (sl : Nat) (junk : α) (h : 2 ≤ sl) : Used (CSAP.new sl junk)
  | push {s s' : CSAP α} {x : α} {r : Int × Int} (h : Used s) (e : s.pushArray x = .ok (s', r)) :
      Used s'
  | initOut {s : CSAP α} (h : Used s) : Used s.initOutLoop.1
  | next {s : CSAP α} (h : Used s) : Used (s.getNextSegment .Out).1
  | write {s s' : CSAP α} {v : View} {i : Nat} {x : α} (h : Used s) (hv : 0 ≤ v.seg)
      (e : s.viewSet v i x = .ok s') : Used s'
  | pass {σ : Type} {skip : α → Bool} {adv : Adv σ α} {s s' : CSAP α} {st st' : σ} (h : Used s)
      (hn : s.getNumberOfItems < 4294967296) (e : cppPass skip adv s st = .ok (s', st')) : Used s'

end CppMover
end Dt
