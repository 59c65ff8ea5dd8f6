import Verif.Model.RectBuild

/-!
# The mesh on a segment of a circle

`UserMesh2DCirc_C.create_mesh` (UserMesh_y_Fields_FE2D_Module.py:197-370): a rectangle mesh, with radius and angle as
coordinates, is stretched in radius and bent.  The markers, set before the mesh is bent, are in `MeshMark`.

Simplifications
* `cos`, `sin`, `sqrt` and the power `**stretch` are arguments; the theorems are about those of the real numbers.
* Diagonals as in `RectMesh` (one per box); "crossed", with a vertex in the middle of each box, is in `Model/Crossed`.
* The markers keep their facets when the coordinates change; so do the numbers of cells, facets and vertices.
-/

namespace Dt
namespace Sector
open Dt.Topology
variable {K : Type} [Field K]

/-- `denser` (UserMesh_y_Fields_FE2D_Module.py:314-315), the radius. -/
def denser (rmin rmax : K) (pw : K → K) (x : K) : K := rmin + (rmax - rmin) * pw ((x - rmin) / (rmax - rmin))

/-- `cylinder` (UserMesh_y_Fields_FE2D_Module.py:332-333). -/
def cylinder (cos sin : K → K) (tmax r t : K) : Vec K 2 := ![r * cos (tmax * t), r * sin (tmax * t)]

/-- `cell.normal(facet)` of a triangle in Dolfin (TriangleCell::normal): `p0` is the vertex opposite to the facet,
`p1` and `p2` are the vertices of the facet.  Dolfin divides by the length of `t` first. -/
def triNormal (sqrt : K → K) (p0 p1 p2 : Vec K 2) : Fin 3 → K :=
  let t := p2 - p1
  let d := p2 - p0
  let n : Vec K 2 := dot t t • d - dot d t • t
  ![n 0 / sqrt (dot n n), n 1 / sqrt (dot n n), 0]

/-- The vertices of facet `k` of a triangle. -/
def others : Nat → Nat × Nat
  | 0 => (1, 2)
  | 1 => (0, 2)
  | _ => (0, 1)

/-- The normals of a triangle with the corners `p`. -/
def normals (sqrt : K → K) (p : Nat → Vec K 2) (k : Nat) : Fin 3 → K :=
  triNormal sqrt (p k) (p (others k).1) (p (others k).2)

/-- `mesh.coordinates()[:] = ...` (UserMesh_y_Fields_FE2D_Module.py:323, 339): vertices move, and Dolfin computes
normals from the new coordinates. -/
def redraw (sqrt : K → K) (f : Vec K 2 → Vec K 2) (D : DMesh K 2) : DMesh K 2 where
  cells := D.cells.map (fun c => ⟨c.index, c.verts, c.facets, normals sqrt (fun i => f (D.coord ((c.verts[i]?).getD 0)))⟩)
  coord v := f (D.coord v)
  attached := D.attached

/-- The mesh of `create_mesh` (UserMesh_y_Fields_FE2D_Module.py:223-339). -/
def circleMesh (cos sin sqrt pw : K → K) (rmin rmax tmax : K) (nr nt : Nat) (d : Nat → Nat → Bool) : DMesh K 2 :=
  redraw sqrt (fun p => cylinder cos sin tmax (denser rmin rmax pw (p 0)) (p 1))
    (Rect.dmesh (Mark.gridPoint rmin rmax nr) (Mark.gridPoint 0 1 nt) d nr nt)

end Sector
end Dt
