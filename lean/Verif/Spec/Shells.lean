import Verif.Spec.Poisson
import Verif.Spec.Wall
import Verif.Spec.TimeLoop

/-!
# Specification of a one-dimensional electrostatic simulation

Charged sheets or shells that move in the field of all of them.  There are no cells of particles, no facets,
containers, matrices or potentials; of the mesh there remain the vertices `x 0 < ... < x N`, between which the
field is constant.
-/

namespace Dt.Spec
open Poisson
variable {K : Type} [Field K] [LinearOrder K]

/-- The part of a unit charge at `y` that counts as below the cell from `a` to `b`: all of it below the cell, none of
it above, in the cell in proportion to the distance from the upper end. -/
def below (a b y : K) : K := if y ≤ a then 1 else if b ≤ y then 0 else (b - y) / (b - a)

/-- `F c` is the field in the cell `c` of the charges `(q, y)`: the flux through a cell is the charge below it plus
the charge `A` of the electrode at the lower end, which is zero if that end is open, and otherwise such that the
voltage is the one given. -/
def IsField (eps : K) (co : Coord) (x : Nat → K) (N : Nat) (v0 : Val K) (vN : K) (charges : List (K × K)) (F : Nat → K) :
    Prop :=
  ∃ A : K, (∀ c < N, flux eps co x F c = A + (charges.map (fun q => q.1 * below (x c) (x (c + 1)) q.2)).sum) ∧
    (v0 = .unset → A = 0) ∧ (∀ v, v0 = .num v → ∑ c ∈ Finset.range N, (x (c + 1) - x c) * F c = v - vN)

/-- A function that finds the cell of a point. -/
def Locates (x : Nat → K) (N : Nat) (locate : K → Nat) : Prop :=
  ∀ y, x 0 ≤ y → y ≤ x N → locate y < N ∧ x (locate y) ≤ y ∧ y ≤ x (locate y + 1)

section
variable {ρ V σ φ : Type}

/-- A step of a particle in the field `F`, with a mirror at `a` if `L`. -/
def walledLeap (a : K) (L : Bool) (dt qom : K) (F : K → K) (k : Vec K 1 × Vec K 1 × ρ) : Vec K 1 × Vec K 1 × ρ :=
  let k' := leap dt qom (some (fun _ => F (k.1 0))) k
  if L then folded a k' else k'

/-- The charges of a state: charge number times weight times `spacecharge_factor`, and position. -/
def chargesOf (weight : Part K 1 ρ → K) (factor : K) (pops : List (Pop K V (Part K 1 ρ))) : List (K × K) :=
  pops.flatMap (fun p => p.st.items.map (fun q => (p.charge * weight q * factor, q.x 0)))

open TimeLoop (Cfg) in
/-- The state `j` follows from the state `i`: every charged particle makes a step in the field of the charges of
`i`; those beyond the ends are dropped; the particles made by sources are added. -/
def FieldStep (eps : K) (co : Coord) (x : Nat → K) (N : Nat) (v0 : Val K) (vN : K) (L : String → Bool)
    (qom : String → K) (locate : K → Nat) (cfg : Cfg K V (Part K 1 ρ) σ φ) (sl : Nat) (i j : Ideal K V (Part K 1 ρ) σ) : Prop :=
  j.count = i.count + 1 ∧ j.time = i.time + cfg.dt ∧
  ∃ F : Nat → K, IsField eps co x N v0 vN (chargesOf cfg.A.weight (cfg.factor.getD 1) i.pops) F ∧
  List.Forall₂ (fun s s' => s'.name = s.name ∧ s'.charge = s.charge ∧ s'.mass = s.mass ∧
    s'.index = s.index ∧
    s'.st.items.map kin =
      (if s.charge = 0 then s.st.items.map kin
       else ((s.st.items.map kin).map (walledLeap (x 0) (L s.name) cfg.dt (qom s.name) (fun y => F (locate y)))).filter
        (fun k => decide (x 0 ≤ k.1 0 ∧ k.1 0 ≤ x N))) ++
      (i.made cfg sl s.name).map kin) i.pops j.pops

end

end Dt.Spec
