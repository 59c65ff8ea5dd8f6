import Mathlib.Algebra.BigOperators.Fin
import Mathlib.Algebra.Order.Field.Basic
import Verif.Model.Py

/-!
# Model of the particle-mesh geometry (`Mesh_C`, Dolfin_Module.py)

Coordinates are elements of an arbitrary linearly ordered field `K`
(simplification: the source uses 64-bit floats; rounding is not modelled).
`g` is the geometric dimension of the mesh.
-/

namespace Dt

/-- A coordinate vector (a 1-d NumPy array of length `d`). -/
abbrev Vec (K : Type) (d : Nat) := Fin d → K

variable {K : Type}

/-- `np_m.dot`. -/
def dot [Field K] {d : Nat} (u v : Vec K d) : K := ∑ i, u i * v i

/-- What the mesh dictionaries hold for one cell:
`cell_dict[ci].get_vertex_coordinates()` (Dolfin_Module.py:676),
`cell_facet_normals_dict[ci]` (:386-421),
`cell_entity_indices_dict['facet'][ci]` (:207-247) and
`cell_neighbors_dict[ci]` (:281-364). -/
structure Cell (K : Type) (g : Nat) where
  verts : List (Vec K g)
  normals : List (Vec K g)
  facets : List Int
  neighbors : List Int

/-- A mesh: cells by index (`none`: the key is missing from the dictionaries) and
`particle_boundary_marker` by mesh-level facet index. -/
structure Mesh (K : Type) (g : Nat) where
  cell : Int → Option (Cell K g)
  marker : Int → Int

/-- `Mesh_C.NO_FACET`, `Mesh_C.NO_CELL` (Dolfin_Module.py:35-36). -/
abbrev noFacet : Int := -1
abbrev noCell : Int := -1

/-- A dictionary lookup of a cell; a missing key is a KeyError. -/
def Mesh.lookup {g : Nat} (M : Mesh K g) (ci : Int) : Except Err (Cell K g) :=
  match M.cell ci with
  | some c => .ok c
  | none => .error .key

/-- The facets in the order tested by `find_facet`, with the vertex used as a
point of the facet plane (3D: Dolfin_Module.py:700-760; 2D: 778-838; 1D:
858, 874). -/
def facetTests (g : Nat) : List (Int × Int) :=
  match g with
  | 3 => [(0, 1), (1, 2), (2, 3), (3, 0)]
  | 2 => [(0, 1), (1, 2), (2, 0)]
  | _ => [(0, 0), (1, 1)]

section
variable [Field K] [LinearOrder K] {g : Nat}

/-- The test of one facet (e.g. Dolfin_Module.py:696-713): `acc` is
(facet, dxFraction); the result is the same, unchanged if the plane is not crossed
earlier than so far. -/
def testFacet (c : Cell K g) (x0 dx : Vec K g) (k w : Int) (acc : Int × K) :
    Except Err (Int × K) := do
  let n ← pyGet c.normals k
  let nDotDx := dot n dx
  if nDotDx > 0 then do
    let v ← pyGet c.verts w
    let d0 := dot n (v - x0)
    let d := if d0 < 0 then -d0 else d0
    if d < acc.2 * nDotDx then return (k, d / nDotDx) else return acc
  else return acc

/-- All the tests one after the other (3D and 2D). -/
def testAll (c : Cell K g) (x0 dx : Vec K g) : List (Int × Int) → Int × K → Except Err (Int × K)
  | [], acc => .ok acc
  | (k, w) :: rest, acc => do
    let acc' ← testFacet c x0 dx k w acc
    testAll c x0 dx rest acc'

/-- `find_facet` in 3D and 2D (Dolfin_Module.py:661-848).  The third component of
the result is `facetNormalVectors[facet]`; for NO_FACET = -1 this is the last
normal (Python index -1). -/
def findFacetMulti (c : Cell K g) (x0 dx : Vec K g) : Except Err (Int × K × Option (Vec K g)) :=
  if dot dx dx = 0 then .ok (noFacet, 1, none)
  else do
    let (facet, f) ← testAll c x0 dx (facetTests g) (noFacet, 1)
    if f > 1 ∨ f < 0 then .error .exit
    else do
      let n ← pyGet c.normals facet
      return (facet, f, some n)

/-- `find_facet` in 1D (Dolfin_Module.py:661-672, 850-889): returns as soon as a
facet is crossed; the range check belongs to the second test only. -/
def findFacet1 (c : Cell K g) (x0 dx : Vec K g) : Except Err (Int × K × Option (Vec K g)) :=
  if dot dx dx = 0 then .ok (noFacet, 1, none)
  else do
    let (facet, f) ← testFacet c x0 dx 0 0 (noFacet, 1)
    if facet = 0 then do
      let n ← pyGet c.normals facet
      return (facet, f, some n)
    else do
      let (facet, f) ← testFacet c x0 dx 1 1 (noFacet, 1)
      if facet = 1 then do
        let n ← pyGet c.normals facet
        return (facet, f, some n)
      else if f > 1 ∨ f < 0 then .error .exit
      else do
        let n ← pyGet c.normals facet
        return (facet, f, some n)

/-- `find_facet` (Dolfin_Module.py:626-891). -/
def Mesh.findFacet (M : Mesh K g) (x0 dx : Vec K g) (ci : Int) :
    Except Err (Int × K × Option (Vec K g)) := do
  if dot dx dx = 0 then .ok (noFacet, 1, none)
  else do
    let c ← M.lookup ci
    match g with
    | 3 => findFacetMulti c x0 dx
    | 2 => findFacetMulti c x0 dx
    | _ => findFacet1 c x0 dx

/-- `cell.contains(p)`: an external function of Dolfin, modelled as the closed
intersection of the half-spaces behind the facet planes (this is the closed
simplex). -/
def Cell.contains (c : Cell K g) (p : Vec K g) : Bool :=
  (facetTests g).all (fun kw =>
    match c.normals[kw.1.toNat]?, c.verts[kw.2.toNat]? with
    | some n, some v => decide (dot n (p - v) ≤ 0)
    | _, _ => false)

/-- `is_inside_cell` (Dolfin_Module.py:560-597). -/
def Mesh.isInside (M : Mesh K g) (p : Vec K g) (ci : Int) : Except Err Bool := do
  let c ← M.lookup ci
  return c.contains p

end
end Dt
