import Verif.Model.Geometry

/-!
# Specification of meshes: what the tracking relies on

None of these definitions is used by the model.
-/

namespace Dt
variable {K : Type} [Field K] [LinearOrder K] {g : Nat}

/-- Vertex `j` of a cell lies on facet `k`: in 2D and 3D facet `k` is opposite to
vertex `k`, in 1D facet `k` is vertex `k` (Dolfin's numbering). -/
def onFacet (g k j : Nat) : Prop := if g = 1 then j = k else j ≠ k

/-- The cell is a non-degenerate simplex with outward facet normals. -/
structure Cell.Regular (c : Cell K g) : Prop where
  dim : 1 ≤ g ∧ g ≤ 3
  verts : c.verts.length = g + 1
  normals : c.normals.length = g + 1
  facets : c.facets.length = g + 1
  neighbors : c.neighbors.length = g + 1
  /-- All vertices of a facet lie in its plane. -/
  plane : ∀ (k i j : Nat) (n vi vj : Vec K g), c.normals[k]? = some n → c.verts[i]? = some vi →
    c.verts[j]? = some vj → onFacet g k i → onFacet g k j → dot n (vj - vi) = 0
  /-- The remaining vertex lies strictly behind it. -/
  behind : ∀ (k i j : Nat) (n vi vj : Vec K g), c.normals[k]? = some n → c.verts[i]? = some vi →
    c.verts[j]? = some vj → onFacet g k i → ¬ onFacet g k j → dot n (vj - vi) < 0

/-- The point `p` is behind or on the plane of facet `k`. -/
def Cell.Behind (c : Cell K g) (k : Nat) (p : Vec K g) : Prop :=
  ∀ (n v : Vec K g) (j : Nat), c.normals[k]? = some n → c.verts[j]? = some v → onFacet g k j →
    dot n (p - v) ≤ 0

/-- The point `p` is on the plane of facet `k`. -/
def Cell.OnPlane (c : Cell K g) (k : Nat) (p : Vec K g) : Prop :=
  ∀ (n v : Vec K g) (j : Nat), c.normals[k]? = some n → c.verts[j]? = some v → onFacet g k j →
    dot n (p - v) = 0

/-- The closed cell as a set of points. -/
def Cell.Has (c : Cell K g) (p : Vec K g) : Prop := ∀ k, k ≤ g → c.Behind k p

end Dt
