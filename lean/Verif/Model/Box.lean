import Verif.Model.MeshMark
import Verif.Model.MeshBuild

/-!
# The mesh on a box

`BoxMesh(pmin, pmax, nx, ny, nz)`, the mesh that `UserMesh_C.create_mesh` makes if both corners have three coordinates
(UserMesh_y_Fields_FE_XYZ_Module.py:362-396): every box of the grid is cut into six tetrahedra around its diagonal.
The markers of this mesh are in `MeshMark`.

Simplifications
* The numbers of facets are ours; Dolfin's depend on the order in which it visits the cells.  The numbers of vertices and
  cells are Dolfin's (BoxMesh::build_tet).
* `sqrt` is an argument.
-/

namespace Dt
namespace Box
open Dt.Topology
variable {K : Type} [Field K]

/-- The tetrahedra of a box in Dolfin's order.  Each contains one of the six ways from the first corner to the last along
edges; it is named after the directions of these. -/
inductive Tet where
  | xyz | xzy | zxy | yxz | zyx | yzx
  deriving DecidableEq, Repr

def Tet.no : Tet → Nat
  | .xyz => 0
  | .xzy => 1
  | .zxy => 2
  | .yxz => 3
  | .zyx => 4
  | .yzx => 5

/-- The corners of a tetrahedron, as steps from the first corner of the box. -/
def Tet.steps : Tet → List (Nat × Nat × Nat)
  | .xyz => [(0, 0, 0), (1, 0, 0), (1, 1, 0), (1, 1, 1)]
  | .xzy => [(0, 0, 0), (1, 0, 0), (1, 0, 1), (1, 1, 1)]
  | .zxy => [(0, 0, 0), (0, 0, 1), (1, 0, 1), (1, 1, 1)]
  | .yxz => [(0, 0, 0), (0, 1, 0), (1, 1, 0), (1, 1, 1)]
  | .zyx => [(0, 0, 0), (0, 0, 1), (0, 1, 1), (1, 1, 1)]
  | .yzx => [(0, 0, 0), (0, 1, 0), (0, 1, 1), (1, 1, 1)]

/-- The number of a vertex of the grid. -/
def vertNo (nx ny i j k : Nat) : Nat := (k * (ny + 1) + j) * (nx + 1) + i

/-- The kinds of facets that start at vertex `(i, j, k)`: 0 to 5 are half of a rectangle of the grid, reached in the
directions xy, xz, yx, yz, zx, zy; 6 to 8 contain the diagonal of the box and an edge in the direction x, y, z at its
end; 9 to 11 contain it and an edge in the direction x, y, z at its start. -/
def labels (i j k : Nat) : Tet → List (Nat × Nat × Nat × Nat)
  | .xyz => [(i + 1, j, k, 3), (i, j, k, 8), (i, j, k, 9), (i, j, k, 0)]
  | .xzy => [(i + 1, j, k, 5), (i, j, k, 7), (i, j, k, 9), (i, j, k, 1)]
  | .zxy => [(i, j, k + 1, 0), (i, j, k, 7), (i, j, k, 11), (i, j, k, 4)]
  | .yxz => [(i, j + 1, k, 1), (i, j, k, 8), (i, j, k, 10), (i, j, k, 2)]
  | .zyx => [(i, j, k + 1, 2), (i, j, k, 6), (i, j, k, 11), (i, j, k, 5)]
  | .yzx => [(i, j + 1, k, 4), (i, j, k, 6), (i, j, k, 10), (i, j, k, 3)]

/-- The number of a facet. -/
def facetNo (nx ny : Nat) (l : Nat × Nat × Nat × Nat) : Int :=
  12 * ((vertNo nx ny l.1 l.2.1 l.2.2.1 : Nat) : Int) + (l.2.2.2 : Int)

/-- The number of a tetrahedron. -/
def tetNo (nx ny i j k : Nat) (t : Tet) : Int := 6 * (((k * ny + j) * nx + i : Nat) : Int) + (t.no : Int)

/-- The vertices of a tetrahedron. -/
def tetVerts (nx ny i j k : Nat) (t : Tet) : List Nat :=
  t.steps.map (fun s => vertNo nx ny (i + s.1) (j + s.2.1) (k + s.2.2))

/-- The coordinates of the vertices. -/
def coord (x y z : Nat → K) (nx ny v : Nat) : Vec K 3 :=
  ![x (v % (nx + 1)), y (v / (nx + 1) % (ny + 1)), z (v / (nx + 1) / (ny + 1))]

/-- The cross product. -/
def cross (u v : Vec K 3) : Vec K 3 := ![u 1 * v 2 - u 2 * v 1, u 2 * v 0 - u 0 * v 2, u 0 * v 1 - u 1 * v 0]

/-- `cell.normal(facet)` of a tetrahedron in Dolfin (TetrahedronCell::normal): `p0` is the vertex opposite to the facet,
the others are the vertices of the facet. -/
def tetNormal [LinearOrder K] (sqrt : K → K) (p0 p1 p2 p3 : Vec K 3) : Fin 3 → K :=
  let n := cross (p2 - p1) (p3 - p1)
  let s := if 0 < dot n (p0 - p1) then -1 else 1
  fun i => s * (n i / sqrt (dot n n))

/-- The vertices of facet `k` of a tetrahedron. -/
def others : Nat → Nat × Nat × Nat
  | 0 => (1, 2, 3)
  | 1 => (0, 2, 3)
  | 2 => (0, 1, 3)
  | _ => (0, 1, 2)

/-- The normals of a tetrahedron with the corners `p`. -/
def normals [LinearOrder K] (sqrt : K → K) (p : Nat → Vec K 3) (k : Nat) : Fin 3 → K :=
  tetNormal sqrt (p k) (p (others k).1) (p (others k).2.1) (p (others k).2.2)

section
variable [LinearOrder K]

/-- A tetrahedron. -/
def simplex (sqrt : K → K) (x y z : Nat → K) (nx ny i j k : Nat) (t : Tet) : DSimplex K where
  index := tetNo nx ny i j k t
  verts := tetVerts nx ny i j k t
  facets := (labels i j k t).map (facetNo nx ny)
  normal := normals sqrt (fun m => coord x y z nx ny (((tetVerts nx ny i j k t)[m]?).getD 0))

/-- All tetrahedra, box by box. -/
def simplices (sqrt : K → K) (x y z : Nat → K) (nx ny nz : Nat) : List (DSimplex K) :=
  (List.range (nx * ny * nz)).flatMap (fun m =>
    [Tet.xyz, Tet.xzy, Tet.zxy, Tet.yxz, Tet.zyx, Tet.yzx].map
      (simplex sqrt x y z nx ny (m % nx) (m / nx % ny) (m / nx / ny)))

/-- The mesh with the grid points `x`, `y`, `z`. -/
def dmesh (sqrt : K → K) (x y z : Nat → K) (nx ny nz : Nat) : DMesh K 3 where
  cells := simplices sqrt x y z nx ny nz
  coord := coord x y z nx ny
  attached F := ((simplices sqrt x y z nx ny nz).filter (fun c => decide (F ∈ c.facets))).map (·.index)

/-- `BoxMesh(pmin, pmax, nx, ny, nz)` (UserMesh_y_Fields_FE_XYZ_Module.py:389). -/
def brickMesh (sqrt : K → K) (pmin pmax : Vec K 3) (nx ny nz : Nat) : DMesh K 3 :=
  dmesh sqrt (Mark.gridPoint (pmin 0) (pmax 0) nx) (Mark.gridPoint (pmin 1) (pmax 1) ny)
    (Mark.gridPoint (pmin 2) (pmax 2) nz) nx ny nz

end

end Box
end Dt
