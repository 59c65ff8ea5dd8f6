import Verif.Model.CppPass

/-!
# Model of a program with compiled movers and containers

The calls of a program with `use_cpp_integrators = True` on several species, in any order: creating
particles from lists and by sources, mover calls, and complete loops over the particles; the loops of
tests/unit/test_cpp_ParticleMigration.py and test_cpp_ParticleNonuniformE.py are sequences of them.

Simplifications
* No trajectories.
* A species is one record: whether it is charged, and its container.
* What a mover does to one particle is an argument (`Adv`), one function per call and species.
* The particles a source creates are arguments.
-/

namespace Dt
namespace CppProgram
open CppMover
variable {σ α : Type}

/-- One species: `charge != 0`, `sap_dict[s]`. -/
structure Sp (α : Type) where
  charged : Bool
  sap : CSAP α

/-- What the program gets to see: the indices returned for a new particle and the record read back,
or the records met in a loop. -/
inductive Obs (α : Type) where
  | created (seg full : Int) (p : α)
  | items (xs : List α)
  deriving DecidableEq, Repr

/-- The calls. -/
inductive Op (σ α : Type) where
  /-- `advance_charged_particles_in_E_field` (true) or `advance_neutral_particles` (false) -/
  | advance (charged : Bool) (core : Nat → Adv σ α)
  /-- one particle of `create_from_list`: a tuple -/
  | createList (k : Nat) (p : α)
  /-- one particle of `create_maxwellian_particles`: a NumPy array -/
  | createSource (k : Nat) (p : α)
  /-- a complete loop over the particles of species `k`, looking at `pseg[0:npSeg]` -/
  | look (k : Nat)
  | other (f : σ → Except Err σ)

/-- The loop over species of a mover call (Particle_Module.py:1399-1411, 1864-1875), from species
number `k`.  Only the neutral movers test the flag DELETE first. -/
def advanceAll (isDel : α → Bool) (charged : Bool) (core : Nat → Adv σ α) :
    Nat → List (Sp α) → σ → Except Err (List (Sp α) × σ)
  | _, [], st => .ok ([], st)
  | k, sp :: sps, st =>
    if sp.charged = charged then do
      let (sap', st') ← cppStep (if charged then fun _ => false else isDel) (core k) sp.sap st
      let (sps', st'') ← advanceAll isDel charged core (k + 1) sps st'
      return ({ sp with sap := sap' } :: sps', st'')
    else do
      let (sps', st') ← advanceAll isDel charged core (k + 1) sps st
      return (sp :: sps', st')

/-- One particle of `create_from_list` (Particle_Module.py:626-630): the tuple overload of
`push_back`, then the record is read back. -/
def createList (p : α) (sp : Sp α) : Except Err (Sp α × Obs α) := do
  let (sap', (seg, full)) ← sp.sap.pushList p
  let (pseg, offset) ← sap'.getSegmentAndOffset full
  let q ← cGet pseg offset
  return ({ sp with sap := sap' }, .created seg full q)

/-- One particle of `create_maxwellian_particles` (Particle_Module.py:3034): the array overload. -/
def createSource (p : α) (sp : Sp α) : Except Err (Sp α × Obs α) := do
  let (sap', (seg, full)) ← sp.sap.pushArray p
  return ({ sp with sap := sap' }, .created seg full p)

/-- `while isinstance(pseg, np_m.ndarray): for p in pseg[0:npSeg]: ...` (Particle_Module.py:918-927).
`fuel` bounds the number of segments. -/
def readPieces : Nat → CSAP α → Int → Option View → Except Err (CSAP α × List α)
  | _, s, _, none => .ok (s, [])
  | 0, _, _, some _ => .error .fuel
  | fuel + 1, s, n, some v => do
    let pseg ← s.viewAll v
    let (s', (n', v')) := s.getNextSegment .Out
    let (s'', rest) ← readPieces fuel s' n' v'
    return (s'', pseg.take n.toNat ++ rest)

/-- A complete loop over the particles of a species. -/
def look (sp : Sp α) : Except Err (Sp α × Obs α) := do
  let (s', (n, v)) := sp.sap.initOutLoop
  let (s'', xs) ← readPieces ((sp.sap.arr sp.sap.outSel).nseg + 1) s' n v
  return ({ sp with sap := s'' }, .items xs)

/-- Do something with species number `k`. -/
def onSpecies (f : Sp α → Except Err (Sp α × Obs α)) :
    Nat → List (Sp α) → Except Err (List (Sp α) × Obs α)
  | _, [] => .error .key
  | 0, sp :: sps => do
    let (sp', o) ← f sp
    return (sp' :: sps, o)
  | k + 1, sp :: sps => do
    let (sps', o) ← onSpecies f k sps
    return (sp :: sps', o)

/-- One call, and what it lets the program see. -/
def exec (isDel : α → Bool) (w : List (Sp α) × σ) : Op σ α →
    Except Err ((List (Sp α) × σ) × List (Obs α))
  | .advance charged core => do
    let w' ← advanceAll isDel charged core 0 w.1 w.2
    return (w', [])
  | .createList k p => do
    let (sps', o) ← onSpecies (createList p) k w.1
    return ((sps', w.2), [o])
  | .createSource k p => do
    let (sps', o) ← onSpecies (createSource p) k w.1
    return ((sps', w.2), [o])
  | .look k => do
    let (sps', o) ← onSpecies look k w.1
    return ((sps', w.2), [o])
  | .other f => do
    let st' ← f w.2
    return ((w.1, st'), [])

/-- A program. -/
def run (isDel : α → Bool) : List (Op σ α) → List (Sp α) × σ →
    Except Err ((List (Sp α) × σ) × List (Obs α))
  | [], w => .ok (w, [])
  | op :: ops, w => do
    let (w', os) ← exec isDel w op
    let (w'', os') ← run isDel ops w'
    return (w'', os ++ os')

end CppProgram
end Dt
