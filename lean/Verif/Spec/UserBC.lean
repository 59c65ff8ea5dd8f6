import Verif.Model.Track

/-! # Specification: boundary functions that leave a particle alone -/

namespace Dt
variable {K : Type} [Field K] [LinearOrder K] {g p : Nat} {τ ρ : Type}

/-- The callback leaves position, velocity, weight etc. of the particle and the delete flag as they are. -/
def Idle (f : τ → BCall K g p ρ → Except Err (τ × Part K p ρ)) : Prop :=
  ∀ st call st' q, f st call = .ok (st', q) → q.x = call.part.x ∧ q.x0 = call.part.x0 ∧ q.u = call.part.u ∧
    q.del = call.part.del ∧ q.rest = call.part.rest

/-- The callbacks of all marked facets that a motion in the direction `d` can cross outwards are idle. -/
def IdleAhead (M : Mesh K g) (bc : Int → τ → BCall K g p ρ → Except Err (τ × Part K p ρ)) (d : Vec K g) : Prop :=
  ∀ ci c k n F, M.cell ci = some c → pyGet c.normals k = .ok n → pyGet c.facets k = .ok F → 0 < dot n d →
    M.marker F ≠ 0 → Idle (bc (M.marker F))

end Dt
