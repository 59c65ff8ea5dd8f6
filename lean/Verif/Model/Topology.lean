import Verif.Model.Geometry

/-!
# Model of the neighbour tables and of the cell sets

`Mesh_C.compute_cell_neighbors_dict` (Dolfin_Module.py:281-364), its C++ twin
`MeshEntityArrays::compute_cell_neighbors_array` (cpp/MeshEntityArrays.cpp:103-193);
`CellSet_C`, `RectangularRegion_C`, `SphericalRegion_C`, `WholeMesh_C`
(Dolfin_Module.py:1766-2013).
-/

namespace Dt
namespace Topology

/-- What Dolfin knows about the mesh: the cells in iteration order with the mesh indices of their
facets (`df_m.facets(cell)`), and the cells attached to a facet (`facet.entities(tdim)`). -/
structure Topo where
  cells : List (Int × List Int)
  attached : Int → List Int

/-- The Python value for one facet (Dolfin_Module.py:347-355). -/
def pyNeighbor (T : Topo) (ci : Int) (f : Int) : Except Err Int :=
  let others := (T.attached f).filter (fun cj => cj ≠ ci)
  if others.length > 0 then pyGet others 0 else .ok noCell

/-- The C++ value for one facet (cpp/MeshEntityArrays.cpp:146-176); a failing `assert` is an
AssertionError. -/
def cppNeighbor (T : Topo) (ci : Int) (f : Int) : Except Err Int :=
  let att := T.attached f
  if ¬ (1 ≤ att.length ∧ att.length ≤ 2) then .error .assertion
  else if att.length = 2 then do
    let a0 ← pyGet att 0
    if a0 = ci then pyGet att 1 else pyGet att 0
  else .ok noCell

/-- The loop over the facets of a cell, which fills a row of fixed length from `fi` on. -/
def fillRow (value : Int → Except Err Int) : List Int → Nat → List Int → Except Err (List Int)
  | [], _, row => .ok row
  | f :: fs, fi, row => do
    let v ← value f
    let row' ← pySet row fi v
    fillRow value fs (fi + 1) row'

/-- The loop over the cells; a row starts with `nFacets` arbitrary values. -/
def table (value : Int → Int → Except Err Int) (nFacets : Nat) (junk : Int) :
    List (Int × List Int) → Except Err (List (Int × List Int))
  | [] => .ok []
  | (ci, fs) :: cs => do
    let row ← fillRow (value ci) fs 0 (List.replicate nFacets junk)
    let rest ← table value nFacets junk cs
    return (ci, row) :: rest

/-- `compute_cell_neighbors_dict` (Dolfin_Module.py:281-364); `n_facets = tdim + 1`. -/
def pyNeighbors (T : Topo) (tdim : Nat) (junk : Int) : Except Err (List (Int × List Int)) :=
  table (pyNeighbor T) (tdim + 1) junk T.cells

/-- `compute_cell_neighbors_array` (cpp/MeshEntityArrays.cpp:103-193). -/
def cppNeighbors (T : Topo) (nCellFacets : Nat) (junk : Int) : Except Err (List (Int × List Int)) :=
  table (cppNeighbor T) nCellFacets junk T.cells

/-! ### Cell sets -/

variable {K : Type} [Field K] [LinearOrder K]

/-- A Dolfin cell as far as cell sets use it. A `Point` has three coordinates. -/
structure DCell (K : Type) where
  index : Int
  midpoint : Fin 3 → K
  circumradius : K

/-- The attributes of a `CellSet_C` object. -/
structure CellSet (K : Type) where
  cells : List (DCell K)
  index : List Int
  volume : List K
  midpoint : List (List K)
  radius : List K

/-- The choice of the cells (Dolfin_Module.py:1803-1810). -/
def chooseCells (inside : Option ((Fin 3 → K) → Bool)) (mesh : List (DCell K)) : List (DCell K) :=
  match inside with
  | some f => mesh.filter (fun c => f c.midpoint)
  | none => mesh

/-- `mesh_M.cell_volume_dict[c_index]`. -/
def volumeOf (vol : Int → Option K) (c : DCell K) : Except Err K :=
  match vol c.index with
  | some v => .ok v
  | none => .error .key

/-- `CellSet_C.__init__` (Dolfin_Module.py:1790-1847): `inside` is `none` if the subclass does not
define it.  The missing entry of a volume dictionary is a KeyError. -/
def cellSet (gdim : Nat) (vol : Int → Option K) (inside : Option ((Fin 3 → K) → Bool))
    (mesh : List (DCell K)) : Except Err (CellSet K) := do
  let cells := chooseCells inside mesh
  if cells.length = 0 then .error .runtime
  else do
    let volume ← cells.mapM (volumeOf vol)
    return ⟨cells, cells.map DCell.index, volume,
      cells.map (fun c => ((List.finRange 3).take gdim).map c.midpoint),
      cells.map DCell.circumradius⟩

/-- `tol` (Dolfin_Module.py:1915, 1988). -/
def tol : K := 1 / 10 ^ 10

/-- `RectangularRegion_C.inside` (Dolfin_Module.py:1904-1925).  In 1D `pmin`, `pmax` are scalars:
here component 0. -/
def rectInside (gdim : Nat) (pmin pmax : Fin 3 → K) (x : Fin 3 → K) : Bool :=
  match gdim with
  | 3 => decide (x 0 ≥ pmin 0 - tol) && decide (x 0 ≤ pmax 0 + tol) &&
      decide (x 1 ≥ pmin 1 - tol) && decide (x 1 ≤ pmax 1 + tol) &&
      decide (x 2 ≥ pmin 2 - tol) && decide (x 2 ≤ pmax 2 + tol)
  | 2 => decide (x 0 ≥ pmin 0 - tol) && decide (x 0 ≤ pmax 0 + tol) &&
      decide (x 1 ≥ pmin 1 - tol) && decide (x 1 ≤ pmax 1 + tol)
  | _ => decide (x 0 ≥ pmin 0 - tol) && decide (x 0 ≤ pmax 0 + tol)

/-- `SphericalRegion_C.inside` (Dolfin_Module.py:1977-1992): only the first coordinate is
tested; `center` is a scalar. -/
def sphereInside (center radius : K) (x : Fin 3 → K) : Bool :=
  decide (x 0 ≥ center - radius - tol) && decide (x 0 ≤ center + radius + tol)

/-- `RectangularRegion_C(mesh_M, pmin, pmax)` (Dolfin_Module.py:1879-1900). -/
def rectRegion (gdim : Nat) (vol : Int → Option K) (pmin pmax : Fin 3 → K) (mesh : List (DCell K)) :
    Except Err (CellSet K) :=
  cellSet gdim vol (some (rectInside gdim pmin pmax)) mesh

/-- `SphericalRegion_C(mesh_M, center, radius)` (Dolfin_Module.py:1964-1974).  The base class
constructor replaces the attribute `radius` by the array of circumradii. -/
def sphereRegion (gdim : Nat) (vol : Int → Option K) (center radius : K) (mesh : List (DCell K)) :
    Except Err (CellSet K) :=
  cellSet gdim vol (some (sphereInside center radius)) mesh

/-- `WholeMesh_C(mesh_M)` (Dolfin_Module.py:1997-2010). -/
def wholeMesh (gdim : Nat) (vol : Int → Option K) (mesh : List (DCell K)) :
    Except Err (CellSet K) :=
  cellSet gdim vol none mesh

end Topology
end Dt
