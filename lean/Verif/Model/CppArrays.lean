import Verif.Model.MeshBuild
import Verif.Model.CppTrack

/-!
# The mesh arrays of the compiled code made from a Dolfin mesh

The constructor of `MeshEntityArrays<tDim+1>` with `compute_particle_mesh_maps = true`
(cpp/MeshEntityArrays.cpp:59-79), called by `Mesh_C.compute_cpp_arrays` (Dolfin_Module.py:536-555) and
by `Mesh_C.__init__` (130-139), and the mesh as the compiled movers see it.

Simplifications
* What Dolfin knows of the mesh is a `DMesh` and the number of vertices.
* The class with `tDim + 1` facets exists (1 to 3 dimensions).
* An index outside an array is the error `ub`; `boost::multi_array` fills a resized array with zeros.
* `dolfin::Cell(mesh, i)` is the cell with the number `i`.
-/

namespace Dt
namespace Topology
variable {K : Type} {g : Nat}

/-- The loop over the cells in both functions: row number `index()` of an array is replaced. -/
def fillArray {β : Type} (row : DSimplex K → β → Except Err β) : List (DSimplex K) → List β → Except Err (List β)
  | [], arr => .ok arr
  | c :: cs, arr => do
    let old ← cGet arr c.index
    let new ← row c old
    let arr' ← cSet arr c.index new
    fillArray row cs arr'

/-- `compute_cell_neighbors_array` (MeshEntityArrays.cpp:103-193): `neighborCells` is the row of the
cell, whose elements are set one after the other. -/
def neighborsArray (D : DMesh K g) : Except Err (List (List Int)) :=
  fillArray (fun c row => fillRow (cppNeighbor D.topo c.index) c.facets 0 row) D.cells
    (List.replicate D.cells.length (List.replicate (g + 1) 0))

/-- `compute_cell_facet_normals_array` (MeshEntityArrays.cpp:254-285); `std::vector::resize` makes
arrays of zeros. -/
def normalsArray [Zero K] (D : DMesh K g) : Except Err (List (List K)) :=
  fillArray (fun c _ => .ok (cppNormalTable c.normal (g + 1))) D.cells
    (List.replicate D.cells.length (List.replicate (3 * (g + 1)) 0))

/-- `mesh.coordinates()`: the coordinates of all vertices, one after the other. -/
def flatCoords (D : DMesh K g) (nVerts : Nat) : List K :=
  (List.range nVerts).flatMap (fun v => List.ofFn (D.coord v))

/-- The constructor (MeshEntityArrays.cpp:59-79) and what the movers then read for a cell:
`get_cell_neighbors` (206-230), `get_cell_facet_normals` (296-331) and the entities of the Dolfin cell.
`marker` is `particle_boundary_marker`. -/
def buildCpp [Zero K] (D : DMesh K g) (nVerts : Nat) (marker : Int → Int) : Except Err (CppMesh K) := do
  let nbs ← neighborsArray D
  let ns ← normalsArray D
  return {
    coords := flatCoords D nVerts
    cell := fun ci => do
      let c ← dictGet (cellDict D) ci
      let nb ← nbs[ci.toNat]?
      let n ← ns[ci.toNat]?
      return ⟨c.verts, c.facets, nb, ⟨n, vertexTable (c.verts.map D.coord)⟩⟩
    marker := marker }

end Topology
end Dt
