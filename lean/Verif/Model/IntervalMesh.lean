import Verif.Model.Elements
import Mathlib.Data.Fin.VecNotation

/-!
# What Dolfin knows of an interval mesh

`df_m.IntervalMesh(nx, xmin, xmax)` (UserMesh_y_Fields_FE_XYZ_Module.py:216) and
`df_m.UnitIntervalMesh(nr)`, whose vertices are then moved
(UserMesh_y_Fields_Spherical1D_Module.py:239).

Simplifications
* Dolfin is not part of the repository: vertex `i` of the mesh is the `i`-th from the left, cell `i` joins the vertices
  `i` and `i + 1`, and facet `i` is vertex `i`.  `cell.normal` of an interval points outwards.
* The gradients of the linear elements are written out, like the integrals of `Elements`.
-/

namespace Dt
namespace Topology
variable {K : Type} [Field K]

/-- Cell `i`: `entities(0)`, `entities(0)` again for the facets, and the normals. -/
def intervalCell (i : Nat) : DSimplex K :=
  ⟨i, [i, i + 1], [(i : Int), (i : Int) + 1], fun k => if k = 0 then ![-1, 0, 0] else ![1, 0, 0]⟩

/-- `facet.entities(tdim)`: the cells to the left and to the right of a vertex. -/
def intervalAttached (N : Nat) (F : Int) : List Int :=
  (if 1 ≤ F ∧ F ≤ N then [F - 1] else []) ++ (if 0 ≤ F ∧ F < N then [F] else [])

/-- The interval mesh with the vertices `x 0`, ..., `x N`
(UserMesh_y_Fields_FE_XYZ_Module.py:216, UserMesh_y_Fields_Spherical1D_Module.py:239). -/
def intervalD (x : Nat → K) (N : Nat) : DMesh K 1 :=
  ⟨(List.range N).map intervalCell, fun v => ![x v], intervalAttached N⟩

/-- The linear elements of the cells: slopes `-1/h` and `1/h`, and the length `h`. -/
def intervalShape (x : Nat → K) : Poisson.Shape K 1 where
  grad c k := let i := c.index.toNat
    ![if k = 0 then -1 / (x (i + 1) - x i) else 1 / (x (i + 1) - x i)]
  vol c := x (c.index.toNat + 1) - x c.index.toNat

end Topology
end Dt
