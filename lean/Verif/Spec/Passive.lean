import Verif.Spec.Order

/-!
# Specification: the particles that act on others
-/

namespace Dt.Spec
open TimeLoop (Cfg Src)
variable {K : Type} [Field K] [LinearOrder K] {ρ V σ φ : Type}

/-- The particles with a weight. -/
def weighty (weight : Part K 1 ρ → K) (xs : List (Part K 1 ρ)) : List (Part K 1 ρ) := xs.filter (fun q => decide (weight q ≠ 0))

/-- The charged species, without the particles that have no weight. -/
def active (weight : Part K 1 ρ → K) (l : List (Pop K V (Part K 1 ρ))) : List (Pop K V (Part K 1 ρ)) :=
  (l.filter (fun s => decide (s.charge ≠ 0))).map (fun s => { s with st := ⟨weighty weight s.st.items, s.st.stale⟩ })

/-- Two states with the same charged species and the same particles with weight in them.  There may be other, neutral,
species and particles without weight; the numbers of the species and the order of the particles may differ. -/
def SameActive (weight : Part K 1 ρ → K) (l l' : List (Pop K V (Part K 1 ρ))) : Prop :=
  List.Forall₂ (fun s s' => s'.name = s.name ∧ s'.charge = s.charge ∧
    (s'.st.items.map kin).Perm (s.st.items.map kin)) (active weight l) (active weight l')

end Dt.Spec
