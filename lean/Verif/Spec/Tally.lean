import Verif.Spec.Leapfrog

/-! # Specification of callbacks that count -/

namespace Dt
variable {K : Type} [Field K] [LinearOrder K] {g p : Nat} {τ ρ : Type}

/-- The callbacks of the species `sn` keep a count per species in their state: each deletion adds one to
the count of `sn`, nothing else changes any count; they delete only at the boundary of the mesh. -/
structure Counts (M : Mesh K g) (cnt : String → τ → Nat) (sn : String)
    (bc : Int → τ → BCall K g p ρ → Except Err (τ × Part K p ρ)) : Prop where
  one : ∀ st call st' q', bc (M.marker call.facet) st call = .ok (st', q') → call.part.del = false →
    cnt sn st' = cnt sn st + if q'.del then 1 else 0
  others : ∀ st call st' q' s, bc (M.marker call.facet) st call = .ok (st', q') → s ≠ sn →
    cnt s st' = cnt s st
  interior : ∀ st call st' q', bc (M.marker call.facet) st call = .ok (st', q') →
    M.Interior call.facet → q'.del = call.part.del

end Dt
