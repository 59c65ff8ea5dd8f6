import Verif.Spec.Sector
import Mathlib.Analysis.SpecialFunctions.Pow.Real

/-!
# Boxes of a sector with a vertex in the middle
-/

namespace Dt
namespace Spec
namespace Sector
open Real

/-- The radius at the fraction `s` of the way from the inner to the outer circle. -/
noncomputable def radius (rmin rmax stretch s : ℝ) : ℝ := rmin + (rmax - rmin) * s ^ stretch

/-- The middle of every box is nearer to the centre than the middle of its outer chord. -/
def Fits (rmin rmax stretch tmax : ℝ) (nr nt : Nat) : Prop :=
  ∀ i < nr, radius rmin rmax stretch ((i + 1 / 2) / nr) < radius rmin rmax stretch ((i + 1) / nr) * cos (tmax / nt / 2)

end Sector
end Spec
end Dt
