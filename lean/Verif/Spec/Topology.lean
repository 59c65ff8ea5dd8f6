import Verif.Model.Topology

/-! # Specification of the mesh topology, independent of the tables -/

namespace Dt
namespace Spec
open Topology

/-- Cell `c` has facet `f`. -/
def HasFacet (T : Topo) (c f : Int) : Prop := ∃ fs, (c, fs) ∈ T.cells ∧ f ∈ fs

/-- A mesh of simplices with `nFacets` facets: cells have distinct non-negative numbers, and
`attached` lists the one or two cells having a facet. -/
structure Manifold (T : Topo) (nFacets : Nat) : Prop where
  nodup : (T.cells.map (·.1)).Nodup
  nonneg : ∀ c ∈ T.cells, 0 ≤ c.1
  facets : ∀ c ∈ T.cells, c.2.length = nFacets
  distinct : ∀ c ∈ T.cells, c.2.Nodup
  attached : ∀ c f, c ∈ T.attached f ↔ HasFacet T c f
  once : ∀ f, (T.attached f).Nodup
  two : ∀ f, (T.attached f).length ≤ 2

/-- `v` is the right neighbour entry of cell `c` at facet `f`: the other cell with that facet, or
-1 if there is none. -/
def IsNeighbor (T : Topo) (c f v : Int) : Prop :=
  (v = -1 ∧ ∀ d, HasFacet T d f → d = c) ∨ (v ≠ c ∧ HasFacet T v f)

/-- A table gives every cell one right entry for each of its facets, in order. -/
def IsTable (T : Topo) (tab : List (Int × List Int)) : Prop :=
  List.Forall₂ (fun c r => r.1 = c.1 ∧ List.Forall₂ (IsNeighbor T c.1) c.2 r.2) T.cells tab

end Spec
end Dt
