import Verif.Model.MeshMark

/-!
# Specification of boundary tags
-/

namespace Dt.Spec.Mark
open Dt.Mark (Facet Dict)
variable {K ι : Type}

/-- A named part of the boundary. -/
structure Side (K : Type) where
  name : String
  on : K × K → Prop

/-- The straight lines `x = v` and `y = v`. -/
def atX (name : String) (v : K) : Side K := ⟨name, fun p => p.1 = v⟩
def atY (name : String) (v : K) : Side K := ⟨name, fun p => p.2 = v⟩

/-- The facet is on the boundary of the mesh and lies in the given part of it. -/
def LiesOn (f : Facet K) (s : Side K) : Prop := f.exterior = true ∧ ∀ p ∈ f.pts, s.on p

/-- The marker says of every facet of the mesh (`IsFacet`) on which of the named sides it lies, in terms
of the tags of the dictionary, and is 0 for all other facets. -/
def Tagged (IsFacet : ι → Prop) (facet : ι → Facet K) (d : Dict) (sides : List (Side K)) (m : ι → Int) :
    Prop :=
  (∀ f, IsFacet f → ∀ s ∈ sides, LiesOn (facet f) s → (s.name, m f) ∈ d) ∧
  (∀ f, IsFacet f → (∀ s ∈ sides, ¬ LiesOn (facet f) s) → m f = 0)

/-- A Python dictionary has every key once. -/
def IsDict (d : Dict) : Prop := (d.map Prod.fst).Nodup

/-- The facets of an interval mesh with `n` cells. -/
def IsLine (n : Nat) (i : Nat) : Prop := i ≤ n

/-- The facets of a rectangle mesh. -/
def IsRect (nx ny : Nat) : Dt.Mark.RFacet K → Prop
  | .h i j => i < nx ∧ j ≤ ny
  | .v i j => i ≤ nx ∧ j < ny
  | .inner _ _ => True

end Dt.Spec.Mark
