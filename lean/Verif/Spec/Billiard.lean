import Verif.Spec.Leapfrog
import Verif.Model.BC

/-!
# Specification of motion in a domain with walls

Straight motion in a set of points, in any number of dimensions.  A wall is a set of points with a
normal; it is a mirror or a hole.  No cells, no facets, no markers.
-/

namespace Dt
variable {K : Type} [Field K] [LinearOrder K] {g : Nat} {τ ρ ι : Type}

/-- A wall. -/
structure Wall (K : Type) (g : Nat) where
  /-- the points of the wall -/
  on : Vec K g → Prop
  /-- the normal, pointing outwards -/
  n : Vec K g
  /-- a mirror, or a hole in which particles are lost -/
  mirror : Bool

/-- The point at fraction `t` of the way from `a` to `b`. -/
def wayPoint (a b : Vec K g) (t : K) : Vec K g := a + t • (b - a)

/-- The mirror image of position and velocity in the plane through `a` with normal `n`. -/
def imaged (n a : Vec K g) (k : Vec K g × Vec K g × ρ) : Vec K g × Vec K g × ρ :=
  (k.1 - (2 * dot n (k.1 - a)) • n, k.2.1 - (2 * dot n k.2.1) • n, k.2.2)

/-- A particle goes straight from `a` towards the position of `k`.  In the domain `dom` with walls it
arrives with `k'`; the Boolean says whether it is lost. -/
inductive Billiard (dom : Vec K g → Prop) (walls : ι → Wall K g) :
    Vec K g → Vec K g × Vec K g × ρ → Vec K g × Vec K g × ρ → Bool → Prop
  /-- all of the way is in the domain -/
  | stays {a k} (h : ∀ t, 0 ≤ t → t ≤ 1 → dom (wayPoint a k.1 t)) : Billiard dom walls a k k false
  /-- the way in the domain leads to a mirror; the particle goes on from there -/
  | bounce {a k k' lost} (w : ι) (t : K) (h0 : 0 ≤ t) (h1 : t < 1)
      (h : ∀ t', 0 ≤ t' → t' ≤ t → dom (wayPoint a k.1 t')) (hon : (walls w).on (wayPoint a k.1 t))
      (out : 0 < dot (walls w).n (k.1 - a)) (hm : (walls w).mirror = true)
      (r : Billiard dom walls (wayPoint a k.1 t) (imaged (walls w).n (wayPoint a k.1 t) k) k' lost) :
      Billiard dom walls a k k' lost
  /-- the way in the domain leads to a hole -/
  | lost {a k} (w : ι) (t : K) (h0 : 0 ≤ t) (h1 : t < 1)
      (h : ∀ t', 0 ≤ t' → t' ≤ t → dom (wayPoint a k.1 t')) (hon : (walls w).on (wayPoint a k.1 t))
      (out : 0 < dot (walls w).n (k.1 - a)) (hm : (walls w).mirror = false) : Billiard dom walls a k k true

/-- The points of a mesh. -/
def Mesh.Points (M : Mesh K g) (q : Vec K g) : Prop := ∃ (ci : Int) (c : Cell K g), M.cell ci = some c ∧ c.Has q

/-- Every boundary facet of the mesh is part of the wall `wallOf` tells; the walls' normals have
length 1. -/
structure Walled (M : Mesh K g) (walls : ι → Wall K g) (wallOf : Int → ι) : Prop where
  normal : ∀ F n, M.Boundary F n → (walls (wallOf F)).n = n
  unit : ∀ F n, M.Boundary F n → dot n n = 1
  on : ∀ (ci : Int) (c : Cell K g) (k : Nat) (F : Int) (q : Vec K g), M.cell ci = some c →
    c.neighbors[k]? = some (-1) → c.facets[k]? = some F → c.Has q → c.OnPlane k q →
    (walls (wallOf F)).on q

/-- The callbacks of such a mesh: those at mirrors reflect (`bcReflect`), those at holes mark for
deletion, those at other marked facets change nothing; all may change their own state. -/
structure BilliardBC (M : Mesh K g) (walls : ι → Wall K g) (wallOf : Int → ι)
    (bc : Int → τ → BCall K g g ρ → Except Err (τ × Part K g ρ)) : Prop where
  outer : ∀ F n, M.Boundary F n → ∀ st (call : BCall K g g ρ), call.facet = F →
    ∃ st', bc (M.marker F) st call =
      if (walls (wallOf F)).mirror then bcReflect st' call else bcAbsorb st' call
  inner : ∀ F, (∀ n, ¬ M.Boundary F n) → ∀ st (call : BCall K g g ρ), call.facet = F →
    (∃ st', bc (M.marker F) st call = bcNothing st' call) ∨
    (M.marker F = 0 ∧ ∃ e, bc (M.marker F) st call = .error e)
  /-- a facet is not both outside and between two cells -/
  split : ∀ F n, M.Boundary F n → ¬ M.Interior F

end Dt
