import Verif.Model.Sector

/-!
# Meshes with crossed diagonals

`RectangleMesh(..., "crossed")`, one of the options named in UserMesh_y_Fields_FE2D_Module.py:215 and one that
UserMesh_y_Fields_FE_XYZ_Module.py:303-315 passes on for a rectangle: every box of the grid has a vertex in its middle and
four triangles.

Simplifications
* The numbers of facets are ours; Dolfin's depend on the order in which it visits the cells.  The numbers of vertices and
  cells are Dolfin's (RectangleMesh::build_tri).
-/

namespace Dt
namespace Crossed
open Dt.Topology Rect
variable {K : Type} [Field K]

/-- The triangles of a box, in Dolfin's order. -/
inductive Tri where
  | bottom | left | right | top
  deriving DecidableEq, Repr

def Tri.no : Tri → Nat
  | .bottom => 0
  | .left => 1
  | .right => 2
  | .top => 3

/-- The two corners of the box that belong to a triangle; corners are numbered (0, 0), (1, 0), (0, 1), (1, 1). -/
def Tri.ends : Tri → Nat × Nat
  | .bottom => (0, 1)
  | .left => (0, 2)
  | .right => (1, 3)
  | .top => (2, 3)

/-- The vertices in the middle of the boxes come after those of the grid. -/
def midNo (nx ny i j : Nat) : Nat := (nx + 1) * (ny + 1) + j * nx + i

/-- The number of a corner of box `(i, j)`. -/
def cornerNo (nx i j : Nat) : Nat → Nat
  | 0 => vertNo nx i j
  | 1 => vertNo nx (i + 1) j
  | 2 => vertNo nx i (j + 1)
  | _ => vertNo nx (i + 1) (j + 1)

/-- The kinds of facets: 0 and 1 for edges of the grid in the first and in the second direction that start at vertex `(i, j)`,
`2 + q` for the edge from corner `q` of box `(i, j)` to its middle. -/
def labels (i j : Nat) : Tri → List (Nat × Nat × Nat)
  | .bottom => [(i, j, 3), (i, j, 2), (i, j, 0)]
  | .left => [(i, j, 4), (i, j, 2), (i, j, 1)]
  | .right => [(i, j, 5), (i, j, 3), (i + 1, j, 1)]
  | .top => [(i, j, 5), (i, j, 4), (i, j + 1, 0)]

/-- The number of a facet. -/
def facetNo (nx : Nat) (l : Nat × Nat × Nat) : Int := 6 * ((vertNo nx l.1 l.2.1 : Nat) : Int) + (l.2.2 : Int)

/-- The number of a triangle. -/
def triNo (nx i j : Nat) (t : Tri) : Int := 4 * ((j * nx + i : Nat) : Int) + (t.no : Int)

/-- The coordinates of the vertices. -/
def coord (x y : Nat → K) (nx ny v : Nat) : Vec K 2 :=
  if v < (nx + 1) * (ny + 1) then ![x (v % (nx + 1)), y (v / (nx + 1))]
  else
    let m := v - (nx + 1) * (ny + 1)
    ![(x (m % nx) + x (m % nx + 1)) / 2, (y (m / nx) + y (m / nx + 1)) / 2]

/-- A triangle. -/
def simplex (sqrt : K → K) (x y : Nat → K) (nx ny i j : Nat) (t : Tri) : DSimplex K where
  index := triNo nx i j t
  verts := [cornerNo nx i j t.ends.1, cornerNo nx i j t.ends.2, midNo nx ny i j]
  facets := (labels i j t).map (facetNo nx)
  normal := Sector.normals sqrt (fun k => coord x y nx ny
    (([cornerNo nx i j t.ends.1, cornerNo nx i j t.ends.2, midNo nx ny i j][k]?).getD 0))

/-- All triangles, box by box. -/
def simplices (sqrt : K → K) (x y : Nat → K) (nx ny : Nat) : List (DSimplex K) :=
  (List.range (nx * ny)).flatMap (fun m =>
    [Tri.bottom, Tri.left, Tri.right, Tri.top].map (simplex sqrt x y nx ny (m % nx) (m / nx)))

/-- The rectangle. -/
def dmesh (sqrt : K → K) (x y : Nat → K) (nx ny : Nat) : DMesh K 2 where
  cells := simplices sqrt x y nx ny
  coord := coord x y nx ny
  attached F := ((simplices sqrt x y nx ny).filter (fun c => decide (F ∈ c.facets))).map (·.index)

/-- The sector of a ring (UserMesh_y_Fields_FE2D_Module.py:223-339) with the option "crossed". -/
def circleMesh (cos sin sqrt pw : K → K) (rmin rmax tmax : K) (nr nt : Nat) : DMesh K 2 :=
  Sector.redraw sqrt (fun p => Sector.cylinder cos sin tmax (Sector.denser rmin rmax pw (p 0)) (p 1))
    (dmesh sqrt (Mark.gridPoint rmin rmax nr) (Mark.gridPoint 0 1 nt) nr nt)

/-- The facet with a given number. -/
def facetOf (x y : Nat → K) (nx ny : Nat) (F : Int) : Option (Mark.RFacet K) :=
  let m := (F / 6).toNat
  let i := m % (nx + 1)
  let j := m / (nx + 1)
  if F < 0 then none
  else if F % 6 = 0 then if i < nx ∧ j ≤ ny then some (.h i j) else none
  else if F % 6 = 1 then if i ≤ nx ∧ j < ny then some (.v i j) else none
  else if i < nx ∧ j < ny then
    let q := (F % 6 - 2).toNat
    some (.inner (x (i + q % 2), y (j + q / 2)) ((x i + x (i + 1)) / 2, (y j + y (j + 1)) / 2))
  else none

/-- A boundary marker by facet number; 0 for numbers that no facet has. -/
def markerOf (x y : Nat → K) (nx ny : Nat) (pm : Mark.RFacet K → Int) : Int → Int :=
  fun F => ((facetOf x y nx ny F).map pm).getD 0

end Crossed
end Dt
