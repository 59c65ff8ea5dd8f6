import Verif.Model.RectMesh
import Verif.Model.MeshBuild

/-!
# The rectangle as a Dolfin mesh

What Dolfin knows of the mesh made by `RectangleMesh` (UserMesh_y_Fields_FE_XYZ_Module.py:306-316):
vertices in rows, triangles box by box.  As in `RectMesh` the numbers of the facets and the length of the
normals of diagonals are our own.
-/

namespace Dt
namespace Rect
open Dt.Topology
variable {K : Type} [Field K]

/-- The number of vertex `(i, j)`. -/
def vertNo (nx i j : Nat) : Nat := j * (nx + 1) + i

/-- The vertices of triangle `s` of a box with diagonal `b`, in Dolfin's order (by number). -/
def cornerNos (nx i j : Nat) : Bool → Bool → List Nat
  | true, false => [vertNo nx i j, vertNo nx (i + 1) j, vertNo nx (i + 1) (j + 1)]
  | true, true => [vertNo nx i j, vertNo nx i (j + 1), vertNo nx (i + 1) (j + 1)]
  | false, false => [vertNo nx i j, vertNo nx (i + 1) j, vertNo nx i (j + 1)]
  | false, true => [vertNo nx (i + 1) j, vertNo nx i (j + 1), vertNo nx (i + 1) (j + 1)]

/-- Triangle `s` of box `(i, j)`. -/
def simplex (x y : Nat → K) (d : Nat → Nat → Bool) (nx i j : Nat) (s : Bool) : DSimplex K where
  index := cellNo nx i j s
  verts := cornerNos nx i j (d i j) s
  facets := (edges (d i j) s).map (edgeNo nx i j)
  normal k := match (edges (d i j) s)[k]? with
    | some e =>
      let n := normal (x (i + 1) - x i) (y (j + 1) - y j) (d i j) s e
      ![n 0, n 1, 0]
    | none => ![0, 0, 0]

/-- All triangles, box by box. -/
def simplices (x y : Nat → K) (d : Nat → Nat → Bool) (nx ny : Nat) : List (DSimplex K) :=
  (List.range (nx * ny)).flatMap (fun m =>
    [simplex x y d nx (m % nx) (m / nx) false, simplex x y d nx (m % nx) (m / nx) true])

/-- The rectangle. -/
def dmesh (x y : Nat → K) (d : Nat → Nat → Bool) (nx ny : Nat) : DMesh K 2 where
  cells := simplices x y d nx ny
  coord v := ![x (v % (nx + 1)), y (v / (nx + 1))]
  attached F := ((simplices x y d nx ny).filter (fun c => decide (F ∈ c.facets))).map (·.index)

end Rect
end Dt
