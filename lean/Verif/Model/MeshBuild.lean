import Verif.Model.Topology

/-!
# The mesh dictionaries made from a Dolfin mesh

`Mesh_C.compute_cell_dict` (Dolfin_Module.py:195-203), `compute_cell_entity_indices_dict('facet')`
(209-247), `compute_cell_neighbors_dict` (281-364, see `Topology`), `compute_cell_facet_normals_dict`
(384-424), and the mesh seen by the tracking functions, which read these dictionaries.

Simplifications
* What Dolfin knows of the mesh is a `DMesh`; `Spec.Triangulation` says what is assumed of it.
* `find_facet` reads the vertex coordinates from the cell object of `cell_dict`
  (`get_vertex_coordinates`, 676): here, from the vertex numbers of the cell and the coordinates of the
  vertices.
-/

namespace Dt
namespace Topology
variable {K : Type}

/-- A cell of a Dolfin mesh: `cell.index()`, `cell.entities(0)`, `cell.entities(tdim - 1)`, and
`cell.normal(fi)`, which is a `Point` with three coordinates. -/
structure DSimplex (K : Type) where
  index : Int
  verts : List Nat
  facets : List Int
  normal : Nat → Fin 3 → K

/-- A Dolfin mesh: the cells in iteration order, the coordinates of the vertices, and
`facet.entities(tdim)`. -/
structure DMesh (K : Type) (g : Nat) where
  cells : List (DSimplex K)
  coord : Nat → Vec K g
  attached : Int → List Int

/-- A dictionary made by iterating over pairs: the last one with the key counts. -/
def dictGet {β : Type} (l : List (Int × β)) (k : Int) : Option β := l.reverse.lookup k

variable {g : Nat}

/-- `compute_cell_dict` (Dolfin_Module.py:195-203). -/
def cellDict (D : DMesh K g) : List (Int × DSimplex K) := D.cells.map (fun c => (c.index, c))

/-- `compute_cell_entity_indices_dict('facet')` (Dolfin_Module.py:209-247). -/
def facetDict (D : DMesh K g) : List (Int × List Int) := D.cells.map (fun c => (c.index, c.facets))

/-- `facet_normal_3d[0:n_normal_coords]` (Dolfin_Module.py:417), where `gdim` is at most 3. -/
def cutNormal (hg : g ≤ 3) (n : Fin 3 → K) : Vec K g := fun i => n (Fin.castLE hg i)

/-- `compute_cell_facet_normals_dict` (Dolfin_Module.py:384-424): `n_facets = gdim + 1`. -/
def normalDict (hg : g ≤ 3) (D : DMesh K g) : List (Int × List (Vec K g)) :=
  D.cells.map (fun c => (c.index, (List.range (g + 1)).map (fun fi => cutNormal hg (c.normal fi))))

/-- The topology `compute_cell_neighbors_dict` reads. -/
def DMesh.topo (D : DMesh K g) : Topo := ⟨facetDict D, D.attached⟩

/-- The mesh of the tracking functions: a cell is found by its number in each of the dictionaries. -/
def buildMesh (hg : g ≤ 3) (D : DMesh K g) (junk : Int) (marker : Int → Int) : Except Err (Mesh K g) := do
  let nbs ← pyNeighbors D.topo g junk
  return {
    cell := fun ci => do
      let c ← dictGet (cellDict D) ci
      let fs ← dictGet (facetDict D) ci
      let nb ← dictGet nbs ci
      let ns ← dictGet (normalDict hg D) ci
      return ⟨c.verts.map D.coord, ns, fs, nb⟩
    marker := marker }

end Topology
end Dt
