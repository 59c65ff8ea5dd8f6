import Verif.Spec.Tuning

/-!
# Specification: the same particles in another order, on any mesh
-/

namespace Dt.Spec
variable {K V α σ : Type}

/-- What becomes of a particle (`none`: the simulation fails) is a function of the particle: it does not depend on the side state of the mover (nor on
what happened to other particles before), nor on the place of the particle in the containers. -/
def Oblivious (adv : Adv σ α) : Prop :=
  ∃ f : α → Option (α × Bool), ∀ st i o b q, (adv st i o b q).toOption.map (·.2) = f q

/-- The same species with the same particles, with all their attributes, in any order. -/
def Permuted (l l' : List (Pop K V α)) : Prop :=
  List.Forall₂ (fun s s' => s'.name = s.name ∧ s'.charge = s.charge ∧ s'.mass = s.mass ∧ s'.index = s.index ∧
    s'.st.items.Perm s.st.items) l l'

end Dt.Spec
