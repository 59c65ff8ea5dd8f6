import Verif.Model.MeshBuild
import Verif.Spec.Topology
import Verif.Spec.Geometry
import Verif.Spec.Hull
import Mathlib.Algebra.Order.Field.Basic

/-!
# Specification of triangulations, by vertices

Cells that are simplices, numbered facets, and no overlaps.  No dictionaries and no neighbours.
-/

namespace Dt
namespace Spec
open Topology
variable {K : Type} [Field K] [LinearOrder K] {g : Nat}

/-- `p` is in the interior of the simplex: a convex combination of the vertices with positive weights. -/
def InInterior {n : Nat} (v : Fin n → Vec K g) (p : Vec K g) : Prop :=
  ∃ w : Fin n → K, (∀ i, 0 < w i) ∧ ∑ i, w i = 1 ∧ ∀ c, p c = ∑ i, w i * v i c

/-- The corners of a cell. -/
def corner (D : DMesh K g) (c : DSimplex K) (i : Fin (g + 1)) : Vec K g := D.coord ((c.verts[i.1]?).getD 0)

/-- The vertices of facet `k` of a cell. -/
def OfFacet (g : Nat) (c : DSimplex K) (k : Nat) (v : Nat) : Prop := ∃ j, onFacet g k j ∧ c.verts[j]? = some v

/-- A triangulation, as Dolfin knows it. -/
structure Triangulation (hg : g ≤ 3) (D : DMesh K g) : Prop where
  dim : 1 ≤ g
  /-- cells and facets are numbered, and a facet belongs to one or two cells -/
  manifold : Manifold D.topo (g + 1)
  facetNo : ∀ c ∈ D.cells, ∀ F ∈ c.facets, 0 ≤ F
  corners : ∀ c ∈ D.cells, c.verts.length = g + 1
  /-- facets with the same number have the same vertices -/
  same : ∀ c ∈ D.cells, ∀ c' ∈ D.cells, ∀ k k' F, c.facets[k]? = some F → c'.facets[k']? = some F →
    ∀ v, OfFacet g c k v ↔ OfFacet g c' k' v
  /-- the normals are perpendicular to the facets and point away from the remaining vertex -/
  perp : ∀ c ∈ D.cells, ∀ k i j : Fin (g + 1), onFacet g k i → onFacet g k j →
    dot (cutNormal hg (c.normal k)) (corner D c j - corner D c i) = 0
  outward : ∀ c ∈ D.cells, ∀ k i j : Fin (g + 1), onFacet g k i → ¬ onFacet g k j →
    dot (cutNormal hg (c.normal k)) (corner D c j - corner D c i) < 0
  /-- different cells do not overlap -/
  disjoint : ∀ c ∈ D.cells, ∀ c' ∈ D.cells, c.index ≠ c'.index →
    ∀ p, ¬ (InInterior (corner D c) p ∧ InInterior (corner D c') p)

end Spec
end Dt
