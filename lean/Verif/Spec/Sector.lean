import Verif.Spec.MeshBuild
import Mathlib.Analysis.SpecialFunctions.Trigonometric.Basic

/-!
# A sector of a ring
-/

namespace Dt
namespace Spec
namespace Sector
open Real

/-- The point with polar coordinates `r` and `t`. -/
noncomputable def at' (r t : ℝ) : Vec ℝ 2 := ![r * cos t, r * sin t]

/-- The angle of the `j`-th of the `nt + 1` rays. -/
noncomputable def ray (tmax : ℝ) (nt j : Nat) : ℝ := tmax * j / nt

/-- Between two neighbouring rays and between the chords that join the circles of radius `rmin` and `rmax` with them. -/
def OnSector (rmin rmax tmax : ℝ) (nt : Nat) (p : Vec ℝ 2) : Prop :=
  ∃ j < nt, ∃ a b, 0 ≤ a ∧ 0 ≤ b ∧ rmin ≤ a + b ∧ a + b ≤ rmax ∧
    p = at' a (ray tmax nt j) + at' b (ray tmax nt (j + 1))

/-- What the mesh is made for: two radii, an angle of at most one turn, and rays with less than half a turn between
neighbours. -/
structure Proper (rmin rmax stretch tmax : ℝ) (nr nt : Nat) : Prop where
  inner : 0 < rmin
  outer : rmin < rmax
  stretch : 0 < stretch
  angle : 0 < tmax
  turn : tmax ≤ 2 * π
  radial : 1 ≤ nr
  rays : 1 ≤ nt
  half : tmax / nt < π

/-- The area of a triangle. -/
noncomputable def triArea (p : Fin 3 → Vec ℝ 2) : ℝ :=
  |(p 1 0 - p 0 0) * (p 2 1 - p 0 1) - (p 1 1 - p 0 1) * (p 2 0 - p 0 0)| / 2

end Sector
end Spec
end Dt
