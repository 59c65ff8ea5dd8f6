import Verif.Spec.Order

/-!
# Specification: other units and another origin
-/

namespace Dt.Spec
open Poisson
variable {K : Type} [Field K] [LinearOrder K] {ρ V : Type}

/-- The old units of length, time, mass and charge, measured in the new ones, and the old origin. -/
structure UnitChange (K : Type) where
  len : K
  time : K
  mass : K
  charge : K
  origin : K

namespace UnitChange

/-- Units are positive; radii are counted from the centre. -/
structure Valid (c : UnitChange K) (co : Coord) : Prop where
  len : 0 < c.len
  time : 0 < c.time
  mass : 0 < c.mass
  charge : 0 < c.charge
  centre : co = .spherical → c.origin = 0

/-- A position. -/
def pos (c : UnitChange K) (y : K) : K := c.len * y + c.origin

/-- A potential: energy per charge. -/
def volt (c : UnitChange K) (v : K) : K := c.mass * c.len ^ 2 / (c.time ^ 2 * c.charge) * v

/-- A charge-to-mass ratio. -/
def ratio (c : UnitChange K) (q : K) : K := c.charge / c.mass * q

/-- The permittivity: charge per voltage and length; in the Cartesian case masses and charges are those per area. -/
def perm (c : UnitChange K) : Coord → K → K
  | .cartesian, e => c.charge ^ 2 * c.time ^ 2 / (c.mass * c.len) * e
  | .spherical, e => c.charge ^ 2 * c.time ^ 2 / (c.mass * c.len ^ 3) * e

/-- The potential at an end, if one is given. -/
def val (c : UnitChange K) : Val K → Val K
  | .num v => .num (c.volt v)
  | .unset => .unset

/-- Position and velocity of a particle. -/
def state (c : UnitChange K) (k : Vec K 1 × Vec K 1 × ρ) : Vec K 1 × Vec K 1 × ρ :=
  (fun _ => c.pos (k.1 0), (c.len / c.time) • k.2.1, k.2.2)

end UnitChange

/-- The same particles in the new units. -/
def Converted (c : UnitChange K) (l l' : List (Pop K V (Part K 1 ρ))) : Prop :=
  List.Forall₂ (fun s s' => s'.name = s.name ∧ s'.charge = c.charge * s.charge ∧
    s'.st.items.map kin = (s.st.items.map kin).map c.state) l l'

end Dt.Spec
