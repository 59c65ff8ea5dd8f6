import Verif.Model.Geometry

/-!
# Specification: the closed simplex spanned by vertices
-/

namespace Dt

/-- `p` is a convex combination of the points `v i`. -/
def InHull {K : Type} [Field K] [LinearOrder K] {n g : Nat} (v : Fin n → Vec K g) (p : Vec K g) :
    Prop :=
  ∃ w : Fin n → K, (∀ i, 0 ≤ w i) ∧ ∑ i, w i = 1 ∧ ∀ c, p c = ∑ i, w i * v i c

/-- The points are affinely dependent (three points on a line, four points in a plane, ...). -/
def Flat {K : Type} [Field K] {n g : Nat} (v : Fin n → Vec K g) : Prop :=
  ∃ w : Fin n → K, w ≠ 0 ∧ ∑ i, w i = 0 ∧ ∀ c, ∑ i, w i * v i c = 0

end Dt
