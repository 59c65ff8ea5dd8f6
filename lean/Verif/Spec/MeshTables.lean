import Verif.Model.MeshTables

/-!
# Specification of the mesh tables: a table can be read after it has been asked for
-/

namespace Dt
namespace Spec
open Tables (What Compute)

/-- What a user does with a mesh: calls of `compute_...` methods, and handing it to a `Particle_C`
object with Python movers or with compiled ones. -/
inductive MeshCall where
  | compute (c : Compute)
  | particles (useCpp : Bool)
  deriving DecidableEq, Repr

/-- The tables that a call makes. -/
def makes : MeshCall → What → Prop
  | .compute .cellDict, .cell => True
  | .compute .verticesDict, .vertices => True
  | .compute (.entityDict a), .entities b => a = b
  | .compute .normalsDict, .normals => True
  | .compute .neighborsDict, .neighbors => True
  | .compute .volumeDict, .volume => True
  | .particles false, .vertices => True
  | .particles false, .normals => True
  | .particles false, .neighbors => True
  | .particles false, .volume => True
  | .particles false, .entities b => b = "facet"
  | _, _ => False

/-- The tables made by `compute_dictionaries=True`. -/
def flagMakes : What → Prop
  | .entities b => b = "facet"
  | _ => True

/-- The tables there are after a history. -/
def Made (dicts : Bool) (h : List MeshCall) (w : What) : Prop :=
  (dicts = true ∧ flagMakes w) ∨ ∃ c ∈ h, makes c w

/-- A call that cannot fail on a mesh in these coordinates and of this dimension. -/
def CallOk (coords : String) (tdim : Nat) : MeshCall → Prop
  | .compute (.entityDict a) => a = "vertex" ∨ a = "edge" ∨ a = "facet"
  | .compute .volumeDict => coords = "Cartesian" ∨ coords = "1D-spherical-radial"
  | .compute .cppArrays => tdim = 1 ∨ tdim = 2 ∨ tdim = 3
  | .particles true => tdim = 1 ∨ tdim = 2 ∨ tdim = 3
  | .particles false => coords = "Cartesian" ∨ coords = "1D-spherical-radial"
  | _ => True

end Spec

namespace Tables
variable {V : Type}

/-- One call of the history. -/
def apply (c : Spec.MeshCall) (o : Obj V) : Except Err (Obj V) :=
  match c with
  | .compute c => compute c o
  | .particles b => initParticleMesh b (some o)

/-- The whole history. -/
def applyAll : List Spec.MeshCall → Obj V → Except Err (Obj V)
  | [], o => .ok o
  | c :: cs, o => do
    let o ← apply c o
    applyAll cs o

/-- Construction, then the history. -/
def history (M : Mesh V) (coords : Option String) (dicts cpp tree : Bool)
    (h : List Spec.MeshCall) : Except Err (Obj V) := do
  let o ← construct M coords dicts cpp tree
  applyAll h o

end Tables
end Dt
