import Verif.Spec.Billiard

/-!
# Specification of finding cells
-/

namespace Dt
namespace Spec
variable {K : Type} [Field K] [LinearOrder K] {g : Nat}

/-- What Dolfin promises of `compute_first_entity_collision`: a cell that contains the point (any of
them, if there are several), or the largest unsigned 32-bit integer if there is none. -/
structure Finds (M : Mesh K g) (first : Vec K g → Int) : Prop where
  hit : ∀ q, M.Points q → ∃ c, M.cell (first q) = some c ∧ c.Has q
  miss : ∀ q, ¬ M.Points q → first q = 4294967295

end Spec

/-- The cells are numbered from 0 and there are less than 2^31 of them. -/
def Mesh.Numbered {K : Type} {g : Nat} (M : Mesh K g) : Prop :=
  ∀ ci c, M.cell ci = some c → 0 ≤ ci ∧ ci < 2147483648

end Dt
