import Verif.Model.Field
import Mathlib.Algebra.BigOperators.Intervals

/-!
# Model of the Poisson solver in one dimension

`PoissonSolve_C` (Dolfin_Module.py:1463-1743), `UserPoissonSolve1D_C`
(UserMesh_y_Fields_FE_XYZ_Module.py:440-512), `UserPoissonSolve1DS_C`
(UserMesh_y_Fields_Spherical1D_Module.py:399-486), with linear elements for the potential and constant
elements for its gradient, as in examples/sphere1D/sphere1D.py:1004-1032, on an interval mesh with
vertices `x 0 < ... < x N`.

Simplifications
* Degree of freedom `i` belongs to vertex `i` (Dolfin numbers them in its own order).
* Dolfin's part is written out: assembly (`df_m.assemble`, 1554 and 1618) is the sum over the cells of the exact
  integrals; `bc.apply` (1556, 1621) replaces the rows of the marked vertices; in one dimension facets are
  vertices; the projection of a gradient that is constant in each cell on cell-wise constants
  (`df_m.project`, 1736) is the gradient itself.
* The linear solver (`df_m.solve(self.A, U, self.b)`, 1695) is described by `Spec.Solves`.  It gets
  neither `linear_solver` nor `preconditioner`: `solver_parameters` is stored and not used.
* Densities given as strings (`df_m.Expression`, 1601) are not modelled.
-/

namespace Dt
namespace Poisson
variable {K : Type} [Field K]

/-- The two variational forms: `UserPoissonSolve1D_C` and `UserPoissonSolve1DS_C`. -/
inductive Coord where
  | cartesian
  | spherical
  deriving DecidableEq

/-- The integral over the cell from `a` to `b` of the coefficient in `self.a`: 1
(UserMesh_y_Fields_FE_XYZ_Module.py:489) or `r[0]**2` (UserMesh_y_Fields_Spherical1D_Module.py:460). -/
def weight : Coord → K → K → K
  | .cartesian, a, b => b - a
  | .spherical, a, b => (b * b * b - a * a * a) / 3

/-- The gradient in cell `c` of the basis function of vertex `i`. -/
def slope (x : Nat → K) (c i : Nat) : K :=
  if i = c then -1 / (x (c + 1) - x c) else if i = c + 1 then 1 / (x (c + 1) - x c) else 0

/-- `df_m.assemble(self.a)` (Dolfin_Module.py:1554): `A[i,j]` is `a(u[j], v[i])`. -/
def stiffness (eps : K) (co : Coord) (x : Nat → K) (N i j : Nat) : K :=
  ∑ c ∈ Finset.range N, eps * (slope x c j * slope x c i) * weight co (x c) (x (c + 1))

/-- The integral over cell `c` of the basis function of vertex `i`. -/
def hat (x : Nat → K) (c i : Nat) : K := if i = c ∨ i = c + 1 then (x (c + 1) - x c) / 2 else 0

/-- `df_m.assemble(source_expression*self.v*df_m.dx)` (Dolfin_Module.py:1616-1618) for a constant: the
measure is `dx` for both solvers. -/
def loadVector (x : Nat → K) (N : Nat) (density : K) : List K :=
  (List.range (N + 1)).map (fun i => ∑ c ∈ Finset.range N, density * hat x c i)

/-- `df_m.DirichletBC(self.V, value, field_boundary_marker, index)`: the index and the value. -/
abbrev BC (K : Type) := Int × K

/-- `for bc in self.bcs: bc.apply(self.A)` (Dolfin_Module.py:1555-1556). -/
def applyMat (marker : Nat → Int) (bcs : List (BC K)) (A : Nat → Nat → K) : Nat → Nat → K :=
  bcs.foldl (fun A bc i j => if marker i = bc.1 then (if i = j then 1 else 0) else A i j) A

/-- `for bc in self.bcs: bc.apply(self.b)` (Dolfin_Module.py:1620-1621, 1688-1690). -/
def applyVec (marker : Nat → Int) (bcs : List (BC K)) (b : List K) : List K :=
  bcs.foldl (fun b bc => b.mapIdx (fun i v => if marker i = bc.1 then bc.2 else v)) b

/-- A value in `phi_BCs`: a number or the string `'unset'`. -/
inductive Val (K : Type) where
  | num (v : K)
  | unset

/-- `df_m.Constant(value)`: a string is not accepted. -/
def Val.constant : Val K → Except Err K
  | .num v => .ok v
  | .unset => .error .type

/-- `phi_BCs[name]`. -/
def getBC (d : List (String × Int × Val K)) (name : String) : Except Err (Int × Val K) :=
  match d.lookup name with
  | some v => .ok v
  | none => .error .key

/-- The boundary conditions of `UserPoissonSolve1D_C` (UserMesh_y_Fields_FE_XYZ_Module.py:462-477). -/
def bcs1D (d : List (String × Int × Val K)) : Except Err (List (BC K)) := do
  let (imin, vmin) ← getBC d "xmin"
  let (imax, vmax) ← getBC d "xmax"
  let umin ← vmin.constant
  let umax ← vmax.constant
  return [(imin, umin), (imax, umax)]

/-- The boundary conditions of `UserPoissonSolve1DS_C`
(UserMesh_y_Fields_Spherical1D_Module.py:429-448). -/
def bcs1DS (d : List (String × Int × Val K)) : Except Err (List (BC K)) := do
  let (imin, vmin) ← getBC d "rmin"
  let (imax, vmax) ← getBC d "rmax"
  let umax ← vmax.constant
  match vmin with
  | .unset => return [(imax, umax)]
  | .num umin => return [(imin, umin), (imax, umax)]

/-- A solver: `self.A`, `self.b`, `self.bcs`. -/
structure Solver (K : Type) where
  A : Nat → Nat → K
  b : List K
  bcs : List (BC K)

/-- The boundary conditions by solver class. -/
def bcsOf (co : Coord) (d : List (String × Int × Val K)) : Except Err (List (BC K)) :=
  match co with
  | .cartesian => bcs1D d
  | .spherical => bcs1DS d

/-- `assemble_source_expression` (Dolfin_Module.py:1595-1623) with `None`, a float or an int. -/
def assembleSource (x : Nat → K) (N : Nat) (marker : Nat → Int) (s : Solver K) (density : Option K) : Solver K :=
  { s with b := applyVec marker s.bcs (loadVector x N (density.getD 0)) }

/-- The constructors: boundary conditions, `assemble_matrix` (Dolfin_Module.py:1548-1559), and
`assemble_source_expression(0.0)`. -/
def create (eps : K) (co : Coord) (x : Nat → K) (N : Nat) (marker : Nat → Int) (d : List (String × Int × Val K)) :
    Except Err (Solver K) := do
  let bcs ← bcsOf co d
  return assembleSource x N marker ⟨applyMat marker bcs (stiffness eps co x N), [], bcs⟩ (some 0)

/-- `compute_negE` (Dolfin_Module.py:1725-1743): the gradient of the potential in each cell. -/
def negE (x : Nat → K) (N : Nat) (phi : List K) : List K :=
  (List.range N).map (fun c => (phi.getD (c + 1) 0 - phi.getD c 0) / (x (c + 1) - x c))

/-- The function space of the densities on the interval: linear elements.  `pos` is the coordinate of a
particle (`evaluate_basis_all`, Dolfin_Module.py:1338). -/
def lineSpace {α : Type} (x : Nat → K) (cell : α → Nat) (pos : α → K) : Fld.Space K α where
  dofs c := [c, c + 1]
  basis p := [(x (cell p + 1) - pos p) / (x (cell p + 1) - x (cell p)), (pos p - x (cell p)) / (x (cell p + 1) - x (cell p))]

end Poisson
end Dt
