import Verif.Spec.Leapfrog
import Verif.Model.BC
import Verif.Model.LineMesh

/-!
# Specification of motion between two walls

Points on an interval whose ends are mirrors or holes.  No cells, no facets, no normals.
-/

namespace Dt
variable {K : Type} [Field K] [LinearOrder K] {τ ρ : Type}

/-- The mirror image, in the point `a`, of position and velocity. -/
def mirrored (a : K) (k : Vec K 1 × Vec K 1 × ρ) : Vec K 1 × Vec K 1 × ρ :=
  (fun _ => 2 * a - k.1 0, -k.2.1, k.2.2)

/-- The motion that would lead to `k` if there were no walls leads to `k'` between walls at `a` and `b`;
`L`, `R`: the wall is a mirror (otherwise particles are lost there).  The Boolean says whether the
particle is lost. -/
inductive Bounces (a b : K) (L R : Bool) :
    Vec K 1 × Vec K 1 × ρ → Vec K 1 × Vec K 1 × ρ → Bool → Prop
  | stays {k} (ha : a ≤ k.1 0) (hb : k.1 0 ≤ b) : Bounces a b L R k k false
  | leftMirror {k k' lost} (hL : L = true) (ha : k.1 0 < a) (h : Bounces a b L R (mirrored a k) k' lost) :
      Bounces a b L R k k' lost
  | leftHole {k} (hL : L = false) (ha : k.1 0 < a) : Bounces a b L R k k true
  | rightMirror {k k' lost} (hR : R = true) (hb : b < k.1 0)
      (h : Bounces a b L R (mirrored b k) k' lost) : Bounces a b L R k k' lost
  | rightHole {k} (hR : R = false) (hb : b < k.1 0) : Bounces a b L R k k true

/-- A mirror at `a`. -/
def folded (a : K) (k : Vec K 1 × Vec K 1 × ρ) : Vec K 1 × Vec K 1 × ρ :=
  if k.1 0 < a then mirrored a k else k

/-- The callbacks of a mesh on an interval with facets `0` to `N`: those at the ends reflect
(`bcReflect`) or mark for deletion, those at other marked facets change nothing; all may change their
own state. -/
structure WallBC (marker : Int → Int) (N : Nat) (L R : Bool)
    (bc : Int → τ → BCall K 1 1 ρ → Except Err (τ × Part K 1 ρ)) : Prop where
  left : ∀ st (call : BCall K 1 1 ρ), call.facet = 0 →
    ∃ st', bc (marker 0) st call = if L then bcReflect st' call else bcAbsorb st' call
  right : ∀ st (call : BCall K 1 1 ρ), call.facet = (N : Int) →
    ∃ st', bc (marker N) st call = if R then bcReflect st' call else bcAbsorb st' call
  other : ∀ st (call : BCall K 1 1 ρ), call.facet ≠ 0 → call.facet ≠ (N : Int) →
    (∃ st', bc (marker call.facet) st call = bcNothing st' call) ∨
    (marker call.facet = 0 ∧ ∃ e, bc (marker call.facet) st call = .error e)

end Dt
