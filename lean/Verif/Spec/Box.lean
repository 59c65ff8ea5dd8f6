import Verif.Model.Geometry
import Mathlib.Algebra.Order.Group.Abs

/-!
# Specification of boxes
-/

namespace Dt
namespace Spec
variable {K : Type} [Field K] [LinearOrder K]

/-- The box between two corners. -/
def InBrick (pmin pmax p : Vec K 3) : Prop := ∀ c, pmin c ≤ p c ∧ p c ≤ pmax c

instance (pmin pmax p : Vec K 3) : Decidable (InBrick pmin pmax p) := inferInstanceAs (Decidable (∀ _, _))

/-- The volume of a tetrahedron. -/
def tetVolume (v : Fin 4 → Vec K 3) : K :=
  let a := v 1 - v 0
  let b := v 2 - v 0
  let c := v 3 - v 0
  |a 0 * (b 1 * c 2 - b 2 * c 1) - a 1 * (b 0 * c 2 - b 2 * c 0) + a 2 * (b 0 * c 1 - b 1 * c 0)| / 6

end Spec
end Dt
