import Verif.Model.Track
import Verif.Model.Species

/-!
# Finding the cells of particles

`Mesh_C.compute_cell_index` and `compute_cell_indices` (Dolfin_Module.py:433-498), and
`Particle_C.compute_mesh_cell_indices` (Particle_Module.py:816-850) with them.

Simplifications
* `first` is Dolfin's `bbtree.compute_first_entity_collision`; `Spec.Finds` says what is assumed of it.
* The field `cell_index` of a record is a 32-bit integer (Particle_Module.py:262-280); storing a larger
  number keeps the low 32 bits, as NumPy 1 does.
* Printing is omitted.
-/

namespace Dt
namespace Locate
open Species
variable {K : Type} {g p : Nat} {ρ : Type}

/-- `compute_cell_index` (Dolfin_Module.py:433-474) for a point `x`, of which the first `g`
coordinates are used: `sys.exit()` if the answer is `Mesh_C.NO_CELL`, which is -1 (line 35). -/
def computeCellIndex (h : g ≤ p) (first : Vec K g → Int) (x : Vec K p) : Except Err Int :=
  let f := first (proj h x)
  if f = noCell then .error .exit else .ok f

/-- `compute_cell_indices` (Dolfin_Module.py:477-498) for `n` points: the loop body reads the undefined
name `gdim`; without points, the undefined name `point` is read after the loop. -/
def computeCellIndices (n : Nat) : Except Err Unit :=
  match n with
  | 0 => .error .name
  | _ + 1 => .error .name

/-- Storing an integer into a 32-bit field. -/
def int32 (n : Int) : Int := n.bmod (2 ^ 32)

/-- Setting `cell_index` of a record. -/
def setCell (q : Part K p ρ) (ci : Int) : Part K p ρ := { q with cell := int32 ci }

/-- The loop over the particles (Particle_Module.py:829-841), with the exception of
`compute_cell_index`.  `k` particles from `ip` on. -/
def locateItems [Field K] [LinearOrder K] (h : g ≤ p) (M : Mesh K g) (first : Vec K g → Int) (v : View) :
    Nat → Nat → SAP (Part K p ρ) → Except Err (SAP (Part K p ρ))
  | 0, _, s => .ok s
  | k + 1, ip, s => do
    let q ← s.viewGet v ip
    let ci ← computeCellIndex h first q.x
    let q' := setCell q ci
    let s' ← s.viewSet v ip q'
    let ok ← M.isInside (proj h q'.x) q'.cell
    if ok then locateItems h M first v k (ip + 1) s' else .error .runtime

/-- `compute_mesh_cell_indices` for one species (Particle_Module.py:823-845). -/
def locateSpecies [Field K] [LinearOrder K] (h : g ≤ p) (M : Mesh K g) (first : Vec K g → Int)
    (s : SAP (Part K p ρ)) : Except Err (SAP (Part K p ρ)) := do
  let (s', _) ← s.outLoop (σ := Unit) (fun s v n _ => do
    let s' ← locateItems h M first v n.toNat 0 s
    return (s', ())) ()
  return s'

/-- `compute_mesh_cell_indices` (Particle_Module.py:816-850) with a mesh. -/
def locateAll [Field K] [LinearOrder K] (h : g ≤ p) (M : Mesh K g) (first : Vec K g → Int) :
    List (SAP (Part K p ρ)) → Except Err (List (SAP (Part K p ρ)))
  | [] => .ok []
  | s :: ss => do
    let s' ← locateSpecies h M first s
    let ss' ← locateAll h M first ss
    return s' :: ss'

end Locate
end Dt
