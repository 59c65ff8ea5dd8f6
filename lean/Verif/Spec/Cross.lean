import Verif.Spec.MeshBuild

/-!
# Specification: lines through a triangulation

No particles and no tracking.
-/

namespace Dt
namespace Spec
open Topology
variable {K : Type} [Field K] [LinearOrder K] {g : Nat}

/-- Something that moves in the direction `d` can go from `c` through a facet to `c'`. -/
def Ahead (hg : g ≤ 3) (d : Vec K g) (c c' : DSimplex K) : Prop :=
  c.index ≠ c'.index ∧ ∃ (k : Fin (g + 1)) (F : Int), c.facets[k.1]? = some F ∧ F ∈ c'.facets ∧ 0 < dot (cutNormal hg (c.normal k)) d

/-- In any direction `n` cells in succession are at most what one can go through: for each direction the cells can be
numbered with `0`, ..., `n - 1` such that the number decreases from cell to cell. -/
def AtMost (hg : g ≤ 3) (D : DMesh K g) (n : Nat) : Prop :=
  ∀ d : Vec K g, ∃ μ : DSimplex K → Int, (∀ c ∈ D.cells, 0 ≤ μ c ∧ μ c < n) ∧
    ∀ c ∈ D.cells, ∀ c' ∈ D.cells, Ahead hg d c c' → μ c' < μ c

end Spec
end Dt
