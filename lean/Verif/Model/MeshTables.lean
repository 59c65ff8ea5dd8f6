import Verif.Model.Py

/-!
# Model of the lookup tables of a `Mesh_C` object

Which of the dictionaries, the bounding-box tree and the C++ arrays exist after
`Mesh_C.__init__` (Dolfin_Module.py:41-148), the `compute_...` methods (195-557) and
`Particle_C.initialize_particle_mesh` (Particle_Module.py:853-890), and what the calls that look
things up in them do.

Simplifications
* What is stored for a cell is `M.val`: one value per kind of table and cell; the values are those
  of MeshBuild.lean.  A dictionary is an association list, newest entry first; an attribute that
  was never set is an AttributeError.
* The answers of the geometry (is the particle inside the cell?  which facet does it cross?) are
  given, as the list of cells a particle crosses; what they are is the subject of Geometry.lean and
  Track.lean.
* The state after an exception is not modelled.
-/

namespace Dt
namespace Tables

/-- The kinds of tables. -/
inductive What where
  /-- `cell_dict`: the Dolfin cell -/
  | cell
  /-- `cell_vertices_dict` -/
  | vertices
  /-- `cell_facet_normals_dict` -/
  | normals
  /-- `cell_neighbors_dict` -/
  | neighbors
  /-- `cell_volume_dict` -/
  | volume
  /-- `cell_entity_indices_dict[name]` -/
  | entities (name : String)
  deriving DecidableEq, Repr

/-- A Dolfin mesh: its number of cells, topological dimension, and what the tables say. -/
structure Mesh (V : Type) where
  nCells : Nat
  tdim : Nat
  val : What → Nat → V

/-- A dictionary indexed by cells. -/
abbrev CellDict (V : Type) := List (Nat × V)

/-- The `Mesh_C` object; `none` is Python's None. -/
structure Obj (V : Type) where
  mesh : Mesh V
  coords : String
  cell : CellDict V
  vertices : CellDict V
  volume : CellDict V
  normals : Option (CellDict V)
  neighbors : Option (CellDict V)
  entities : List (String × CellDict V)
  /-- `bbtree` is set -/
  tree : Bool
  /-- `mea_object` is set -/
  arrays : Bool

variable {V : Type}

/-- `dict((cell.index(), ...) for cell in df_m.cells(mesh))`. -/
def tabulate (M : Mesh V) (w : What) : CellDict V :=
  (List.range M.nCells).map (fun i => (i, M.val w i))

/-- The loop `for cell in cells: volume_dict[ci] = volume` (Dolfin_Module.py:519-525). -/
def putAll (M : Mesh V) (w : What) : List Nat → CellDict V → CellDict V
  | [], d => d
  | i :: is, d => putAll M w is ((i, M.val w i) :: d)

/-- `entity_dimension` (Dolfin_Module.py:102). -/
def entityNames : List String := ["vertex", "edge", "facet"]

/-- The `compute_...` methods. -/
inductive Compute where
  | cellDict
  | verticesDict
  | entityDict (name : String)
  | vertexCells
  | normalsDict
  | neighborsDict
  | volumeDict
  | cppArrays
  deriving DecidableEq, Repr

/-- One such call (Dolfin_Module.py:195-201, 210-238, 254-267, 281-359, 371-383, 388-422, 501-531,
536-553).  `vertex_cells_dict` is read nowhere and is not kept.  `MeshEntityArrays` is compiled for
2, 3 and 4 facets (cpp/mesh_entity_arrays_solib.cpp:95-99). -/
def compute (c : Compute) (o : Obj V) : Except Err (Obj V) :=
  match c with
  | .cellDict => .ok { o with cell := tabulate o.mesh .cell }
  | .verticesDict => .ok { o with vertices := tabulate o.mesh .vertices }
  | .entityDict name =>
    if name ∈ entityNames then
      .ok { o with entities := (name, tabulate o.mesh (.entities name)) :: o.entities }
    else .error .key
  | .vertexCells => .ok o
  | .normalsDict => .ok { o with normals := some (tabulate o.mesh .normals) }
  | .neighborsDict => .ok { o with neighbors := some (tabulate o.mesh .neighbors) }
  | .volumeDict =>
    if o.coords = "Cartesian" then .ok { o with volume := tabulate o.mesh .volume }
    else if o.coords = "1D-spherical-radial" then
      .ok { o with volume := putAll o.mesh .volume (List.range o.mesh.nCells) o.volume }
    else .error .value
  | .cppArrays =>
    if o.mesh.tdim + 1 = 2 ∨ o.mesh.tdim + 1 = 3 ∨ o.mesh.tdim + 1 = 4 then
      .ok { o with arrays := true }
    else .error .attribute

/-- Several calls, one after the other. -/
def computes : List Compute → Obj V → Except Err (Obj V)
  | [], o => .ok o
  | c :: cs, o =>
    match compute c o with
    | .error e => .error e
    | .ok o => computes cs o

/-- What `compute_dictionaries=True` computes (Dolfin_Module.py:115-127). -/
def allDicts : List Compute :=
  [.cellDict, .verticesDict, .entityDict "facet", .vertexCells, .normalsDict, .neighborsDict,
   .volumeDict]

/-- `Mesh_C(Mesh=..., coordinate_system=..., compute_dictionaries=..., compute_cpp_arrays=...,
compute_tree=...)` (Dolfin_Module.py:41-148). -/
def construct (M : Mesh V) (coords : Option String) (dicts cpp tree : Bool) : Except Err (Obj V) :=
  match coords with
  | none => .error .value
  | some cs => do
    let o : Obj V := ⟨M, cs, [], [], [], none, none, [], tree, false⟩
    let o ← computes (if dicts then allDicts else []) o
    computes (if cpp then [.cppArrays] else []) o

/-- `initialize_particle_mesh(mesh_M)` with the attribute `use_cpp_integrators`
(Particle_Module.py:853-890). -/
def initParticleMesh (useCpp : Bool) (mesh : Option (Obj V)) : Except Err (Obj V) :=
  match mesh with
  | none => .error .runtime
  | some o =>
    if useCpp then compute .cppArrays o
    else computes [.verticesDict, .entityDict "facet", .normalsDict, .neighborsDict, .volumeDict] o

/-- `d[i]` for a cell index `i`. -/
def getItem (d : CellDict V) (i : Int) : Except Err V :=
  if 0 ≤ i then
    match d.lookup i.toNat with
    | some v => .ok v
    | none => .error .key
  else .error .key

/-- `d[i]` for an attribute that can be None. -/
def getItem? (d : Option (CellDict V)) (i : Int) : Except Err V :=
  match d with
  | none => .error .type
  | some d => getItem d i

/-- Reading the table `w` for the cell `i`. -/
def read (w : What) (o : Obj V) (i : Int) : Except Err V :=
  match w with
  | .cell => getItem o.cell i
  | .vertices => getItem o.vertices i
  | .normals => getItem? o.normals i
  | .neighbors => getItem? o.neighbors i
  | .volume => getItem o.volume i
  | .entities name =>
    match o.entities.lookup name with
    | none => .error .key
    | some d => getItem d i

/-- What `is_inside_cell(point, i)` looks up (Dolfin_Module.py:576). -/
def isInside (o : Obj V) (i : Int) : Except Err Unit := do
  let _ ← read .cell o i

/-- What `find_facet(r0, dr, i)` looks up for a displacement other than zero
(Dolfin_Module.py:681, 690). -/
def findFacet (o : Obj V) (i : Int) : Except Err Unit := do
  let _ ← read .cell o i
  let _ ← read .normals o i

/-- One turn of the facet-crossing loop in the cell `i` (Particle_Module.py:1277, 1309; 1686, 1774;
2040, 2068). -/
def crossing (o : Obj V) (i : Int) : Except Err Unit := do
  findFacet o i
  let _ ← read (.entities "facet") o i
  let _ ← read .neighbors o i

/-- What the Python movers look up for one particle, which crosses facets of the cells `crossed`
and stops in the cell `last`, or is absorbed on the last facet (`none`). -/
def trip (o : Obj V) : List Int → Option Int → Except Err Unit
  | [], none => .ok ()
  | [], some i => isInside o i
  | i :: is, last => do
    isInside o i
    crossing o i
    trip o is last

/-- `divide_by_cell_volumes` (Dolfin_Module.py:1384-1403): the volumes it divides by. -/
def divideAll (o : Obj V) : List Nat → Except Err (List V)
  | [] => .ok []
  | i :: is => do
    let v ← read .volume o i
    let vs ← divideAll o is
    return v :: vs

/-- `divide_by_cell_volumes`. -/
def divideByVolumes (o : Obj V) : Except Err (List V) := divideAll o (List.range o.mesh.nCells)

/-- What `compute_cell_index(point)` needs (Dolfin_Module.py:461). -/
def cellIndex (o : Obj V) : Except Err Unit := if o.tree then .ok () else .error .attribute

/-- `compute_mesh_cell_indices` (Particle_Module.py:816-850) for particles that are in the cells
`cells`. -/
def cellIndices (o : Obj V) : List Nat → Except Err Unit
  | [] => .ok ()
  | i :: is => do
    cellIndex o
    isInside o i
    cellIndices o is

end Tables
end Dt
