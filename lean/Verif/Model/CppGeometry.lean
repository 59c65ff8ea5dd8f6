import Verif.Model.Geometry
import Verif.Model.CppSAP

/-!
# Model of the compiled geometry functions (`cpp/dolfin_functions.cpp`, `cpp/predicates.cpp`)

Coordinates are elements of a linearly ordered field (no rounding).  Pointers into arrays of
doubles are a list and an offset; an access outside the array is the error `ub`.
`exit(EXIT_FAILURE)` is the error `exit`.
-/

namespace Dt
variable {K : Type}

/-- The `g` doubles at offset `off` of an array. -/
def loadVec (xs : List K) (off g : Nat) : Except Err (Vec K g) :=
  if h : off + g ≤ xs.length then .ok (fun i => xs[off + i.1]'(by omega)) else .error .ub

section
variable [Field K] [LinearOrder K]

/-- `_orient2d` (predicates.cpp:1650-1680 and 1513-1648).  The adaptive evaluation returns a number
with the sign of this determinant; the model returns the determinant. -/
def orient2d (a b c : Vec K 2) : K := (a 0 - c 0) * (b 1 - c 1) - (a 1 - c 1) * (b 0 - c 0)

/-- `_orient3d` (predicates.cpp:2322-2364); same remark. -/
def orient3d (a b c d : Vec K 3) : K :=
  (a 2 - d 2) * ((b 0 - d 0) * (c 1 - d 1) - (c 0 - d 0) * (b 1 - d 1))
    + (b 2 - d 2) * ((c 0 - d 0) * (a 1 - d 1) - (a 0 - d 0) * (c 1 - d 1))
    + (c 2 - d 2) * ((a 0 - d 0) * (b 1 - d 1) - (b 0 - d 0) * (a 1 - d 1))

/-- `_collides_segment_point_1d` (predicates.cpp:2386-2395) and the 1D case of
`is_inside_vertices` (dolfin_functions.cpp:613-626). -/
def between (p0 p1 x : K) : Bool :=
  if p0 > p1 then decide (p1 ≤ x) && decide (x ≤ p0) else decide (p0 ≤ x) && decide (x ≤ p1)

/-- The 2D case of `is_inside_vertices` (dolfin_functions.cpp:629-671). -/
def insideTriangle (p0 p1 p2 pt : Vec K 2) : Bool :=
  let ref := orient2d p0 p1 p2
  if ref > 0 then
    decide (orient2d p1 p2 pt ≥ 0) && decide (orient2d p2 p0 pt ≥ 0) && decide (orient2d p0 p1 pt ≥ 0)
  else if ref < 0 then
    decide (orient2d p1 p2 pt ≤ 0) && decide (orient2d p2 p0 pt ≤ 0) && decide (orient2d p0 p1 pt ≤ 0)
  else
    (decide (orient2d p0 p1 pt = 0) && between (p0 0) (p1 0) (pt 0) && between (p0 1) (p1 1) (pt 1)) ||
    (decide (orient2d p1 p2 pt = 0) && between (p1 0) (p2 0) (pt 0) && between (p1 1) (p2 1) (pt 1)) ||
    (decide (orient2d p2 p0 pt = 0) && between (p2 0) (p0 0) (pt 0) && between (p2 1) (p0 1) (pt 1))

/-- The 3D case (dolfin_functions.cpp:674-723); `dolfin_error` throws a RuntimeError. -/
def insideTetra (p0 p1 p2 p3 pt : Vec K 3) : Except Err Bool :=
  let ref := orient3d p0 p1 p2 p3
  if ref > 0 then
    .ok (decide (orient3d p0 p1 p2 pt ≥ 0) && decide (orient3d p0 p3 p1 pt ≥ 0) &&
      decide (orient3d p0 p2 p3 pt ≥ 0) && decide (orient3d p1 p3 p2 pt ≥ 0))
  else if ref < 0 then
    .ok (decide (orient3d p0 p1 p2 pt ≤ 0) && decide (orient3d p0 p3 p1 pt ≤ 0) &&
      decide (orient3d p0 p2 p3 pt ≤ 0) && decide (orient3d p1 p3 p2 pt ≤ 0))
  else .error .runtime

/-- `is_inside_vertices` (dolfin_functions.cpp:603-726).  `coords` is `mesh.coordinates()`, the flat
array of the coordinates of all vertices; `vertices` are the vertex numbers of the cell; `point` is
the array of the point's coordinates. -/
def isInsideVertices (tDim gDim : Nat) (coords : List K) (vertices : List Nat) (point : List K) :
    Except Err Bool :=
  if tDim = 1 ∧ gDim = 1 then do
    let v0 ← cGet vertices 0
    let v1 ← cGet vertices 1
    let p0 ← cGet coords (v0 : Int)
    let p1 ← cGet coords (v1 : Int)
    let x ← cGet point 0
    return between p0 p1 x
  else if tDim = 2 ∧ gDim = 2 then do
    let v0 ← cGet vertices 0
    let v1 ← cGet vertices 1
    let v2 ← cGet vertices 2
    let p0 ← loadVec coords (v0 * gDim) 2
    let p1 ← loadVec coords (v1 * gDim) 2
    let p2 ← loadVec coords (v2 * gDim) 2
    let pt ← loadVec point 0 2
    return insideTriangle p0 p1 p2 pt
  else if tDim = 3 ∧ gDim = 3 then do
    let v0 ← cGet vertices 0
    let v1 ← cGet vertices 1
    let v2 ← cGet vertices 2
    let v3 ← cGet vertices 3
    let p0 ← loadVec coords (v0 * gDim) 3
    let p1 ← loadVec coords (v1 * gDim) 3
    let p2 ← loadVec coords (v2 * gDim) 3
    let p3 ← loadVec coords (v3 * gDim) 3
    let pt ← loadVec point 0 3
    insideTetra p0 p1 p2 p3 pt
  else .ok false

/-! ### `find_facet` -/

/-- What `find_facet` reads for one cell: `facetNormalVectors` (three doubles per facet,
MeshEntityArrays.h:60-68) and `vertex_coords` (`gDim` doubles per vertex). -/
structure CppCell (K : Type) where
  normals : List K
  coords : List K

/-- The test of one facet (e.g. dolfin_functions.cpp:145-171): facet `k`, vertex `w`.  `vecToFacet`
is a scratch array written before it is read. -/
def cppTestFacet (g : Nat) (c : CppCell K) (x0 dx : Vec K g) (k w : Nat) (acc : Int × K) :
    Except Err (Int × K) := do
  let n ← loadVec c.normals (k * 3) g
  let nDotDx := dot n dx
  if nDotDx > 0 then do
    let v ← loadVec c.coords (w * g) g
    let d0 := dot n (v - x0)
    let d := if d0 < 0 then -d0 else d0
    if d < acc.2 * nDotDx then return ((k : Int), d / nDotDx) else return acc
  else return acc

/-- `&facetNormalVectors[facet*cellFNVdim]`, of which `gDim` doubles are copied
(dolfin_functions.cpp:250-260).  `facet*cellFNVdim` is a product of an `int` and a `size_t`: for -1
it is a huge offset. -/
def cppNormal (g : Nat) (c : CppCell K) (facet : Int) : Except Err (Vec K g) :=
  if 0 ≤ facet then loadVec c.normals (facet.toNat * 3) g else .error .ub

/-- 3D (dolfin_functions.cpp:133-262). -/
def cppFindFacet3 (c : CppCell K) (x0 dx : Vec K 3) : Except Err (Int × K × Option (Vec K 3)) := do
  let a ← cppTestFacet 3 c x0 dx 0 1 (noFacet, 1)
  let a ← cppTestFacet 3 c x0 dx 1 2 a
  let a ← cppTestFacet 3 c x0 dx 2 3 a
  let a ← cppTestFacet 3 c x0 dx 3 0 a
  if a.2 > 1 ∨ a.2 < 0 then .error .exit
  else do
    let n ← cppNormal 3 c a.1
    return (a.1, a.2, some n)

/-- 2D (dolfin_functions.cpp:263-374). -/
def cppFindFacet2 (c : CppCell K) (x0 dx : Vec K 2) : Except Err (Int × K × Option (Vec K 2)) := do
  let a ← cppTestFacet 2 c x0 dx 0 1 (noFacet, 1)
  let a ← cppTestFacet 2 c x0 dx 1 2 a
  let a ← cppTestFacet 2 c x0 dx 2 0 a
  if a.2 > 1 ∨ a.2 < 0 then .error .exit
  else do
    let n ← cppNormal 2 c a.1
    return (a.1, a.2, some n)

/-- 1D (dolfin_functions.cpp:375-460): returns at the first facet crossed, after an `assert`
on `dxFraction`; `exit` when no facet is crossed. -/
def cppFindFacet1 (c : CppCell K) (x0 dx : Vec K 1) : Except Err (Int × K × Option (Vec K 1)) := do
  let a ← cppTestFacet 1 c x0 dx 0 0 (noFacet, 1)
  if a.1 = 0 then do
    if 0 ≤ a.2 ∧ a.2 ≤ 1 then do
      let n ← cppNormal 1 c a.1
      return (a.1, a.2, some n)
    else .error .abort
  else do
    let a ← cppTestFacet 1 c x0 dx 1 1 (noFacet, 1)
    if a.1 = 1 then
      if 0 ≤ a.2 ∧ a.2 ≤ 1 then do
        let n ← cppNormal 1 c a.1
        return (a.1, a.2, some n)
      else .error .abort
    else .error .exit

/-- `find_facet` (dolfin_functions.cpp:75-466) with `returnStdArray = false`, the way the movers
call it.  The third component is `none` for `nullptr`. -/
def cppFindFacet : (g : Nat) → CppCell K → Vec K g → Vec K g → Except Err (Int × K × Option (Vec K g))
  | 3, c, x0, dx => if dot dx dx = 0 then .ok (noFacet, 1, none) else cppFindFacet3 c x0 dx
  | 2, c, x0, dx => if dot dx dx = 0 then .ok (noFacet, 1, none) else cppFindFacet2 c x0 dx
  | 1, c, x0, dx => if dot dx dx = 0 then .ok (noFacet, 1, none) else cppFindFacet1 c x0 dx
  | _, _, _, _ => .ok (noFacet, 1, none)

/-! ### The tables the two implementations are given -/

/-- `compute_cell_facet_normals_array` (MeshEntityArrays.cpp:254-285) for one cell; `normal fi` is
Dolfin's `cell.normal(fi)`, a 3-vector. -/
def cppNormalTable (normal : Nat → Vec K 3) (nFacets : Nat) : List K :=
  (List.range nFacets).flatMap (fun fi => [normal fi 0, normal fi 1, normal fi 2])

/-- `compute_cell_facet_normals_dict` (Dolfin_Module.py:387-421) for one cell: the first `gdim`
components. -/
def pyNormalTable (g : Nat) (hg : g ≤ 3) (normal : Nat → Vec K 3) (nFacets : Nat) : List (Vec K g) :=
  (List.range nFacets).map (fun fi => fun i => normal fi (Fin.castLE hg i))

/-- `cell.get_vertex_coordinates` (dolfin/mesh/Cell.h:339, quoted at dolfin_functions.cpp:124-130). -/
def vertexTable {g : Nat} (verts : List (Vec K g)) : List K := verts.flatMap List.ofFn

end
end Dt
