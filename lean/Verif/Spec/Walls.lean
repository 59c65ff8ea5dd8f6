import Verif.Spec.Billiard
import Verif.Spec.MeshBuild

/-!
# Specification: triangulations whose boundary is made of flat walls
-/

namespace Dt
namespace Spec
open Topology
variable {K : Type} [Field K] [LinearOrder K] {g : Nat} {ι : Type}

/-- Facet `k` of the simplex `c` has the number `F` and is on the boundary: no other simplex has it. -/
def Outside (D : DMesh K g) (c : DSimplex K) (k : Nat) (F : Int) : Prop :=
  c ∈ D.cells ∧ c.facets[k]? = some F ∧ ∀ c' ∈ D.cells, F ∈ c'.facets → c'.index = c.index

/-- The facets on the boundary belong to the walls `wallOf` tells, and have their normals. -/
structure FlatWalls (hg : g ≤ 3) (D : DMesh K g) (walls : ι → Wall K g) (wallOf : Int → ι) : Prop where
  normal : ∀ c k F, Outside D c k F → cutNormal hg (c.normal k) = (walls (wallOf F)).n
  unit : ∀ c k F, Outside D c k F → dot (walls (wallOf F)).n (walls (wallOf F)).n = 1
  on : ∀ c k F, Outside D c k F → ∀ q, InHull (corner D c) q →
    (∀ i : Fin (g + 1), onFacet g k i.1 → dot (cutNormal hg (c.normal k)) (q - corner D c i) = 0) → (walls (wallOf F)).on q

end Spec
end Dt
