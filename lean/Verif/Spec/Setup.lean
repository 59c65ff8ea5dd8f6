import Verif.Model.Setup

/-!
# Specification: which compiled movers exist, and which records a tuple makes
-/

namespace Dt.Spec
open Setup

/-- The compiled movers, by coordinate system, kind of species, and facets per cell. -/
def hasMover : Coord → Bool → Nat → Bool
  | .x, true, 2 => true
  | .r, true, 2 => true
  | .xy, true, 3 => true
  | .xy, false, 2 => true
  | .xy, false, 3 => true
  | .xyz, false, 2 => true
  | .xyz, false, 3 => true
  | .xyz, false, 4 => true
  | _, _, _ => false

/-- The mover that should advance a species. -/
def moverOf (useCpp : Bool) (c : Coord) (dim : Nat) (charged : Bool) : Mover :=
  if useCpp then .compiled c charged (dim + 1)
  else if charged then .python "advance_charged_species_in_E_field"
  else .python "advance_neutral_species"

end Dt.Spec
