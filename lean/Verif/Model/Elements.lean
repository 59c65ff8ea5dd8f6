import Verif.Model.Poisson
import Verif.Model.MeshBuild

/-!
# Model of the Poisson solver on any triangulation

`UserPoissonSolve2DCirc_C` (UserMesh_y_Fields_FE2D_Module.py:387-457) on the base class `PoissonSolve_C`
(Dolfin_Module.py:1463-1743), with linear elements for the potential and constant elements for its gradient, as in
tests/unit/test_FieldSolve.py.  The dimension of the mesh is arbitrary; the code uses 2.

Simplifications
* Degree of freedom `i` belongs to vertex `i` (Dolfin numbers them in its own order).
* What Dolfin knows of the linear elements of a cell is a `Shape`: the gradients of the basis functions and the
  volume.  `Spec.Meshed` says what is assumed of it.
* Dolfin's part is written out as in `Poisson`: assembly is the sum over the cells of the exact integrals, a boundary
  condition replaces the rows of the vertices of the marked facets (`DirichletBC`, method "topological"), the
  projection of the gradient, which is constant in each cell, is the gradient.
* The linear solver is described by `Spec.Solves`.
-/

namespace Dt
namespace Poisson
open Topology
variable {K : Type} [Field K] {g : Nat}

/-- The gradients of the basis functions of a cell, by corner, and the volume of the cell. -/
structure Shape (K : Type) (g : Nat) where
  grad : DSimplex K → Nat → Vec K g
  vol : DSimplex K → K

/-- The gradient in a cell of the function with the value `u i` at vertex `i`. -/
def gradIn (sh : Shape K g) (c : DSimplex K) (u : Nat → K) : Vec K g :=
  fun d => ∑ k ∈ Finset.range (g + 1), u (c.verts.getD k 0) * sh.grad c k d

/-- The basis function of vertex `i`. -/
def unit (i : Nat) : Nat → K := fun j => if j = i then 1 else 0

/-- `df_m.assemble(self.a)` (Dolfin_Module.py:1554) for `epsilon*inner(grad(w), grad(v))*dx`
(UserMesh_y_Fields_FE2D_Module.py:432). -/
def stiffnessOn (eps : K) (D : DMesh K g) (sh : Shape K g) (i j : Nat) : K :=
  (D.cells.map (fun c => eps * dot (gradIn sh c (unit j)) (gradIn sh c (unit i)) * sh.vol c)).sum

/-- `df_m.assemble(source_expression*self.v*df_m.dx)` (Dolfin_Module.py:1616-1618) for a constant. -/
def loadOn (D : DMesh K g) (sh : Shape K g) (N : Nat) (density : K) : List K :=
  (List.range (N + 1)).map (fun i => (D.cells.map (fun c =>
    density * ((∑ k ∈ Finset.range (g + 1), unit i (c.verts.getD k 0)) * sh.vol c / (g + 1 : Nat)))).sum)

/-- The vertices of facet `k` of a cell: in one dimension vertex `k`, otherwise all but vertex `k`. -/
def facetVerts (c : DSimplex K) (g k : Nat) : List Nat :=
  if g = 1 then (c.verts[k]?).toList else c.verts.eraseIdx k

/-- Vertex `i` belongs to a facet with the mark `tag`. -/
def touches (D : DMesh K g) (marker : Int → Int) (tag : Int) (i : Nat) : Bool :=
  D.cells.any (fun c => (List.range (g + 1)).any (fun k =>
    decide ((c.facets[k]?).map marker = some tag) && (facetVerts c g k).contains i))

/-- `for bc in self.bcs: bc.apply(self.A)` (Dolfin_Module.py:1555-1556). -/
def applyMatOn (touch : Int → Nat → Bool) (bcs : List (BC K)) (A : Nat → Nat → K) : Nat → Nat → K :=
  bcs.foldl (fun A bc i j => if touch bc.1 i then (if i = j then 1 else 0) else A i j) A

/-- `for bc in self.bcs: bc.apply(self.b)` (Dolfin_Module.py:1620-1621, 1688-1690). -/
def applyVecOn (touch : Int → Nat → Bool) (bcs : List (BC K)) (b : List K) : List K :=
  bcs.foldl (fun b bc => b.mapIdx (fun i v => if touch bc.1 i then bc.2 else v)) b

/-- The boundary conditions (UserMesh_y_Fields_FE2D_Module.py:413-424). -/
def bcs2D (d : List (String × Int × Val K)) : Except Err (List (BC K)) := do
  let (imin, vmin) ← getBC d "rmin"
  let (imax, vmax) ← getBC d "rmax"
  let umin ← vmin.constant
  let umax ← vmax.constant
  return [(imin, umin), (imax, umax)]

/-- `assemble_source_expression` (Dolfin_Module.py:1595-1623) with `None`, a float or an int. -/
def assembleSourceOn (D : DMesh K g) (sh : Shape K g) (N : Nat) (marker : Int → Int) (s : Solver K) (density : Option K) :
    Solver K :=
  { s with b := applyVecOn (touches D marker) s.bcs (loadOn D sh N (density.getD 0)) }

/-- The constructor (UserMesh_y_Fields_FE2D_Module.py:387-444). -/
def createOn (eps : K) (D : DMesh K g) (sh : Shape K g) (N : Nat) (marker : Int → Int) (d : List (String × Int × Val K)) :
    Except Err (Solver K) := do
  let bcs ← bcs2D d
  return assembleSourceOn D sh N marker ⟨applyMatOn (touches D marker) bcs (stiffnessOn eps D sh), [], bcs⟩ (some 0)

/-- `compute_negE` (Dolfin_Module.py:1725-1743): the gradient of the potential in each cell. -/
def negEOn (D : DMesh K g) (sh : Shape K g) (phi : List K) : List (Vec K g) :=
  D.cells.map (fun c => gradIn sh c (fun i => phi.getD i 0))

/-- The function space of the densities: linear elements.  `cell` and `pos` are the cell index and the position of a
particle (`evaluate_basis_all`, Dolfin_Module.py:1338). -/
def meshSpace {α : Type} (D : DMesh K g) (sh : Shape K g) (cell : α → Nat) (pos : α → Vec K g) : Fld.Space K α where
  dofs c := ((D.cells.find? (fun s => decide (s.index = (c : Int)))).map (·.verts)).getD []
  basis p := ((D.cells.find? (fun s => decide (s.index = (cell p : Int)))).map (fun s =>
    (List.range (g + 1)).map (fun k => (if k = 0 then 1 else 0) + dot (sh.grad s k) (pos p - D.coord (s.verts.getD 0 0))))).getD []

end Poisson
end Dt
