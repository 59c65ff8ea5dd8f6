import Verif.Spec.Shells

/-!
# Specification: populations that differ in the order of the particles
-/

namespace Dt.Spec
open TimeLoop (Cfg Src)
variable {K : Type} {ρ V σ φ : Type}

/-- The same species with the same particles, in any order; a particle is its position, its velocity and the rest of
its attributes, without its cell. -/
def Shuffled (l l' : List (Pop K V (Part K 1 ρ))) : Prop :=
  List.Forall₂ (fun s s' => s'.name = s.name ∧ s'.charge = s.charge ∧ s'.mass = s.mass ∧ s'.index = s.index ∧
    (s'.st.items.map kin).Perm (s.st.items.map kin)) l l'

/-- What a source makes depends on the step and the time only. -/
def Steady {α : Type} (s : Src K α σ) : Prop :=
  ∀ count time side side', (s.make count time side).map (·.2) = (s.make count time side').map (·.2)

/-- The two simulations have the same time step, weights, charge factor, and sources.  All else may differ: integrators'
limits on crossings, output intervals, histories, files. -/
structure SameSetup (cfg cfg' : Cfg K V (Part K 1 ρ) σ φ) : Prop where
  dt : cfg'.dt = cfg.dt
  weight : cfg'.A.weight = cfg.A.weight
  factor : cfg'.factor = cfg.factor
  sources : cfg'.sources = cfg.sources

end Dt.Spec
