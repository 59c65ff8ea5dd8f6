import Verif.Spec.Billiard
import Verif.Spec.Wall

/-!
# Specification of motion in a rectangle
-/

namespace Dt
namespace Rect
variable {K : Type} [Field K] [LinearOrder K] {ρ : Type}

/-- The rectangle from `(a, c)` to `(b, e)`. -/
def inBounds (a b c e : K) (q : Vec K 2) : Bool := decide (a ≤ q 0 ∧ q 0 ≤ b ∧ c ≤ q 1 ∧ q 1 ≤ e)

/-- The four sides. -/
inductive Side where
  | left | right | bottom | top
  deriving DecidableEq, Repr

/-- The names of the sides in the boundary dictionary. -/
def Side.name : Side → String
  | .left => "xmin"
  | .right => "xmax"
  | .bottom => "ymin"
  | .top => "ymax"

/-- The sides as walls; `m` says which of them are mirrors. -/
def walls (a b c e : K) (m : Side → Bool) : Side → Wall K 2
  | .left => ⟨fun q => q 0 = a, ![-1, 0], m .left⟩
  | .right => ⟨fun q => q 0 = b, ![1, 0], m .right⟩
  | .bottom => ⟨fun q => q 1 = c, ![0, -1], m .bottom⟩
  | .top => ⟨fun q => q 1 = e, ![0, 1], m .top⟩

/-- One coordinate of position and velocity. -/
def along (r : Fin 2) (k : Vec K 2 × Vec K 2 × ρ) : Vec K 1 × Vec K 1 × ρ :=
  (fun _ => k.1 r, fun _ => k.2.1 r, k.2.2)

/-- One coordinate on its way to `z`, between walls at `a` and `b`, is mirrored at most so many times. -/
def Within (lo hi : Bool) (a b : K) : Nat → K → Prop
  | 0, z => (b < z → hi = false) ∧ (z < a → lo = false)
  | r + 1, z => (b < z → hi = true → Within lo hi a b r (2 * b - z)) ∧
      (z < a → lo = true → Within lo hi a b r (2 * a - z))

end Rect
end Dt
