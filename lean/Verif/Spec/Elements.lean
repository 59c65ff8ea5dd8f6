import Verif.Model.Elements
import Verif.Spec.Poisson
import Verif.Spec.MeshBuild

/-!
# Specification of electrostatics on a triangulation

Functions that are linear in each cell, their gradients, the weak form of Gauss's law and the energy.  No matrices.
-/

namespace Dt.Spec
open Poisson Topology
variable {K : Type} [Field K] {g : Nat}

/-- `G` is the gradient in cell `c` of the linear function with the value `u i` at vertex `i`. -/
def IsGrad (D : DMesh K g) (c : DSimplex K) (u : Nat → K) (G : Vec K g) : Prop :=
  ∀ j : Fin (g + 1), dot G (corner D c j - corner D c 0) = u ((c.verts[j.1]?).getD 0) - u ((c.verts[0]?).getD 0)

/-- What is assumed of Dolfin: cells have `g + 1` of the vertices `0 ... N` as corners; the basis function of a
corner is 1 there and 0 at the others; volumes are positive. -/
structure Meshed [LinearOrder K] (D : DMesh K g) (sh : Shape K g) (N : Nat) : Prop where
  corners : ∀ c ∈ D.cells, c.verts.length = g + 1
  range : ∀ c ∈ D.cells, ∀ v ∈ c.verts, v ≤ N
  basis : ∀ c ∈ D.cells, ∀ k j : Fin (g + 1), dot (sh.grad c k) (corner D c j - corner D c 0) =
    (if k = j then 1 else 0) - (if k = 0 then 1 else 0)
  vol : ∀ c ∈ D.cells, 0 < sh.vol c

/-- Vertex `i` is on a side with the tag. -/
def OnSide (D : DMesh K g) (marker : Int → Int) (tag : Int) (i : Nat) : Prop :=
  ∃ c ∈ D.cells, ∃ k F, k ≤ g ∧ c.facets[k]? = some F ∧ marker F = tag ∧ OfFacet g c k i

/-- Every vertex is connected with a vertex of the set `S` by a chain of cells. -/
inductive Linked (D : DMesh K g) (S : Nat → Prop) : Nat → Prop
  | base {i} : S i → Linked D S i
  | step {c i j} : c ∈ D.cells → i ∈ c.verts → j ∈ c.verts → Linked D S i → Linked D S j

/-- Given values at two sides; where the sides meet the second counts. -/
structure Sides (D : DMesh K g) (marker : Int → Int) (lo hi : Int) (v0 vN : K) (phi : Nat → K) : Prop where
  low : ∀ i, OnSide D marker lo i → ¬ OnSide D marker hi i → phi i = v0
  high : ∀ i, OnSide D marker hi i → phi i = vN

/-- Zero at the sides with given potentials. -/
def Vanishes (D : DMesh K g) (marker : Int → Int) (lo hi : Int) (v : Nat → K) : Prop :=
  ∀ i, OnSide D marker lo i ∨ OnSide D marker hi i → v i = 0

/-- The integral of `eps F · G` over the mesh, for `F` and `G` constant in each cell. -/
def pairing (eps : K) (D : DMesh K g) (vol : DSimplex K → K) (F G : DSimplex K → Vec K g) : K :=
  (D.cells.map (fun c => eps * dot (F c) (G c) * vol c)).sum

/-- What is expected of the potential `phi` with negative electric field `F` and the charge `Q i` at vertex `i`:
given values at the sides, `F` is the gradient, and Gauss's law in the weak form, tested with every function that is
linear in each cell and zero at the sides. -/
structure Electrostatics (eps : K) (D : DMesh K g) (vol : DSimplex K → K) (N : Nat) (marker : Int → Int) (lo hi : Int)
    (v0 vN : K) (Q phi : Nat → K) (F : DSimplex K → Vec K g) : Prop where
  sides : Sides D marker lo hi v0 vN phi
  gradient : ∀ c ∈ D.cells, IsGrad D c phi (F c)
  gauss : ∀ v G, Vanishes D marker lo hi v → (∀ c ∈ D.cells, IsGrad D c v (G c)) →
    pairing eps D vol F G = ∑ i ∈ Finset.range (N + 1), Q i * v i

/-- The energy of the field minus the work of the charges. -/
def energy (eps : K) (D : DMesh K g) (vol : DSimplex K → K) (N : Nat) (Q phi : Nat → K) (F : DSimplex K → Vec K g) : K :=
  pairing eps D vol F F / 2 - ∑ i ∈ Finset.range (N + 1), Q i * phi i

/-- `y` is the value at the point `x` of the function that is linear in cell `c` with the value `u i` at vertex
`i`. -/
def ValueAt (D : DMesh K g) (c : DSimplex K) (u : Nat → K) (x : Vec K g) (y : K) : Prop :=
  ∃ w : Fin (g + 1) → K, ∑ i, w i = 1 ∧ (∀ e, x e = ∑ i, w i * corner D c i e) ∧ y = ∑ i, w i * u ((c.verts[i.1]?).getD 0)

end Dt.Spec
