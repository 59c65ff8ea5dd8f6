import Verif.Model.Geometry
import Mathlib.Data.Fin.VecNotation

/-!
# The one-dimensional mesh

What the mesh dictionaries of `Mesh_C` (Dolfin_Module.py:199-421) hold for an interval
mesh with vertices `x 0 < x 1 < ... < x N` (Dolfin's `IntervalMesh`, and the
radial mesh of UserMesh_y_Fields_Spherical1D_Module.py): cell `i` joins vertices `i` and
`i+1`, facet `i` is vertex `i`, the normals are -1 and +1.
-/

namespace Dt
variable {K : Type} [Field K]

def lineCell (x : Nat → K) (N i : Nat) : Cell K 1 where
  verts := [![x i], ![x (i + 1)]]
  normals := [![-1], ![1]]
  facets := [(i : Int), (i : Int) + 1]
  neighbors := [if i = 0 then -1 else (i : Int) - 1, if i + 1 = N then -1 else (i : Int) + 1]

def lineMesh (x : Nat → K) (N : Nat) (marker : Int → Int) : Mesh K 1 where
  cell ci := if 0 ≤ ci ∧ ci < N then some (lineCell x N ci.toNat) else none
  marker := marker

end Dt
