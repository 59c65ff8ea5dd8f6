import Verif.Spec.Track

/-!
# Specification of paths through the mesh
-/

namespace Dt
variable {K : Type} [Field K] [LinearOrder K] {g p : Nat} {τ ρ : Type}

/-- A boundary condition that deletes every particle that reaches the boundary of the mesh. -/
def Absorbs (M : Mesh K g) (bc : Int → τ → BCall K g p ρ → Except Err (τ × Part K p ρ)) : Prop :=
  ∀ st call st' q' n, bc (M.marker call.facet) st call = .ok (st', q') → M.Boundary call.facet n →
    q'.del = true

/-- `s'` is reached from `s` by the facet crossings `L`, none of them ending the search; for each the
cell that was left and the crossing point. -/
inductive CrossPath (h : g ≤ p) (M : Mesh K g) (v : Variant)
    (bc : Int → τ → BCall K g p ρ → Except Err (τ × Part K p ρ)) :
    List (Int × Vec K p) → Trk K p τ ρ → Trk K p τ ρ → Prop
  | nil (s) : CrossPath h M v bc [] s s
  | cons {L s s1 s'} (out : M.isInside (proj h s.part.x) s.cell = .ok false)
      (e : crossOnce h M v bc s = .ok (s1, false)) (r : CrossPath h M v bc L s1 s') :
      CrossPath h M v bc ((s.cell, s1.part.x0) :: L) s s'

end Dt
