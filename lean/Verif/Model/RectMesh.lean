import Verif.Model.MeshMark
import Mathlib.Data.Fin.VecNotation

/-!
# The rectangle mesh

What the mesh dictionaries of `Mesh_C` (Dolfin_Module.py:199-421) hold for the triangle mesh of
`RectangleMesh(pmin, pmax, nx, ny, diagonal)` (UserMesh_y_Fields_FE_XYZ_Module.py:306-316): `nx` times
`ny` boxes, each cut into two triangles.

Simplifications
* Dolfin's construction of the mesh is external; cells are numbered box by box like Dolfin does, the
  facets in an order of our own.
* `diagonal` is a function of the box (`true`: from the lower left to the upper right corner); this
  covers "right", "left", "left/right" and "right/left", but not "crossed".
* Dolfin's normals have length 1; those of the diagonals have not here.  Only the sign and the ratio of
  products with a normal are used for facets between cells (Dolfin_Module.py:696-713).
-/

namespace Dt
namespace Rect
open Mark (RFacet)

/-- The edges of a triangle: a side of the box or the diagonal. -/
inductive Edge where
  | left | right | bottom | top | diag
  deriving DecidableEq, Repr

/-- The edges of triangle `s` (`false`: the one at the bottom) of a box with diagonal `b`, in the order
of the opposite vertices. -/
def edges : Bool → Bool → List Edge
  | true, false => [.right, .diag, .bottom]
  | true, true => [.top, .diag, .left]
  | false, false => [.diag, .left, .bottom]
  | false, true => [.top, .right, .diag]

/-- The triangle of a box that has a side of the box as edge. -/
def owner (b : Bool) : Edge → Bool
  | .left => b
  | .right => !b
  | .bottom => false
  | .top => true
  | .diag => false

/-- The number of triangle `s` of box `(i, j)`. -/
def cellNo (nx i j : Nat) (s : Bool) : Int := 2 * ((j * nx + i : Nat) : Int) + (if s then 1 else 0)

/-- The number of an edge: `h i j`, `v i j` and the diagonal of box `(i, j)`. -/
def hNo (nx i j : Nat) : Int := 3 * ((j * (nx + 1) + i : Nat) : Int)
def vNo (nx i j : Nat) : Int := 3 * ((j * (nx + 1) + i : Nat) : Int) + 1
def dNo (nx i j : Nat) : Int := 3 * ((j * (nx + 1) + i : Nat) : Int) + 2

/-- The number of an edge of box `(i, j)` (`cell_entity_indices_dict['facet']`). -/
def edgeNo (nx i j : Nat) : Edge → Int
  | .left => vNo nx i j
  | .right => vNo nx (i + 1) j
  | .bottom => hNo nx i j
  | .top => hNo nx i (j + 1)
  | .diag => dNo nx i j

/-- The cell on the other side of an edge of triangle `s` (`cell_neighbors_dict`). -/
def across (d : Nat → Nat → Bool) (nx ny i j : Nat) (s : Bool) : Edge → Int
  | .left => if i = 0 then -1 else cellNo nx (i - 1) j (owner (d (i - 1) j) .right)
  | .right => if i + 1 = nx then -1 else cellNo nx (i + 1) j (owner (d (i + 1) j) .left)
  | .bottom => if j = 0 then -1 else cellNo nx i (j - 1) (owner (d i (j - 1)) .top)
  | .top => if j + 1 = ny then -1 else cellNo nx i (j + 1) (owner (d i (j + 1)) .bottom)
  | .diag => cellNo nx i j (!s)

section
variable {K : Type} [Field K]

/-- The outward normal of an edge of triangle `s` of a box of size `a` times `c`
(`cell_facet_normals_dict`). -/
def normal (a c : K) (b s : Bool) : Edge → Vec K 2
  | .left => ![-1, 0]
  | .right => ![1, 0]
  | .bottom => ![0, -1]
  | .top => ![0, 1]
  | .diag => match b, s with
    | true, false => ![-c, a]
    | true, true => ![c, -a]
    | false, false => ![c, a]
    | false, true => ![-c, -a]

/-- The vertices of triangle `s`. -/
def corners (x0 x1 y0 y1 : K) : Bool → Bool → List (Vec K 2)
  | true, false => [![x0, y0], ![x1, y0], ![x1, y1]]
  | true, true => [![x0, y0], ![x0, y1], ![x1, y1]]
  | false, false => [![x0, y0], ![x1, y0], ![x0, y1]]
  | false, true => [![x1, y0], ![x0, y1], ![x1, y1]]

/-- Triangle `s` of box `(i, j)`. -/
def cell (x y : Nat → K) (d : Nat → Nat → Bool) (nx ny i j : Nat) (s : Bool) : Cell K 2 where
  verts := corners (x i) (x (i + 1)) (y j) (y (j + 1)) (d i j) s
  normals := (edges (d i j) s).map (normal (x (i + 1) - x i) (y (j + 1) - y j) (d i j) s)
  facets := (edges (d i j) s).map (edgeNo nx i j)
  neighbors := (edges (d i j) s).map (across d nx ny i j s)

/-- The mesh: grid lines `x 0, ..., x nx` and `y 0, ..., y ny`. -/
def mesh (x y : Nat → K) (d : Nat → Nat → Bool) (nx ny : Nat) (marker : Int → Int) : Mesh K 2 where
  cell ci := if 0 ≤ ci ∧ ci < 2 * ((nx * ny : Nat) : Int) then
      let m := (ci / 2).toNat
      some (cell x y d nx ny (m % nx) (m / nx) (decide (ci % 2 = 1)))
    else none
  marker := marker

/-- The edge with a given number: the inverse of `hNo`, `vNo` and `dNo`. -/
def facetOf (x y : Nat → K) (d : Nat → Nat → Bool) (nx ny : Nat) (F : Int) : Option (RFacet K) :=
  let m := (F / 3).toNat
  let i := m % (nx + 1)
  let j := m / (nx + 1)
  if F < 0 then none
  else if F % 3 = 0 then if i < nx ∧ j ≤ ny then some (.h i j) else none
  else if F % 3 = 1 then if i ≤ nx ∧ j < ny then some (.v i j) else none
  else if i < nx ∧ j < ny then
    some (if d i j then .inner (x i, y j) (x (i + 1), y (j + 1)) else .inner (x (i + 1), y j) (x i, y (j + 1)))
  else none

/-- `particle_boundary_marker` by facet number; 0 for numbers that no facet has. -/
def markerOf (x y : Nat → K) (d : Nat → Nat → Bool) (nx ny : Nat) (pm : RFacet K → Int) : Int → Int :=
  fun F => ((facetOf x y d nx ny F).map pm).getD 0

end
end Rect
end Dt
