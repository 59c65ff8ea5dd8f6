import Verif.Spec.Plasma

/-!
# Specification of the energy of a plasma

Point charges, a potential that is linear in each simplex, and the energy that the leapfrog method keeps.  No cell numbers,
containers, degrees of freedom or matrices.
-/

namespace Dt.Spec
open Topology
variable {K : Type} [Field K] [LinearOrder K] {g : Nat}

/-- A charged particle: charge, mass, charge-to-mass ratio, position, velocity half a step ago, and the simplex it is in. -/
structure Body (K : Type) (g : Nat) where
  q : K
  m : K
  qom : K
  x : Vec K g
  u : Vec K g
  c : DSimplex K

/-- The velocity half a step later, in the field `E`. -/
def Body.kicked (dt : K) (E : DSimplex K → Vec K g) (b : Body K g) : Vec K g := b.u + (b.qom * dt) • E b.c

/-- A leapfrog step leads from `b` to `b'`. -/
structure Body.Moves (dt : K) (E : DSimplex K → Vec K g) (b b' : Body K g) : Prop where
  q : b'.q = b.q
  m : b'.m = b.m
  qom : b'.qom = b.qom
  u : b'.u = b.kicked dt E
  x : b'.x = b.x + dt • b'.u

/-- `phi` is the potential, and `E` the field, of the particles: `phi` has the given values at the sides, `E` is minus its
gradient, and obeys Gauss's law, tested with every function that is linear in each simplex and zero at the sides. -/
structure IsPotentialOf (eps : K) (D : DMesh K g) (vol : DSimplex K → K) (marker : Int → Int) (lo hi : Int) (v0 vN : K)
    (bs : List (Body K g)) (phi : Nat → K) (E : DSimplex K → Vec K g) : Prop where
  sides : Sides D marker lo hi v0 vN phi
  gradient : ∀ c ∈ D.cells, IsGrad D c phi (-(E c))
  gauss : ∀ v G (val : Vec K g × DSimplex K → K), Vanishes D marker lo hi v → (∀ c ∈ D.cells, IsGrad D c v (G c)) →
    (∀ b ∈ bs, ValueAt D b.c v b.x (val (b.x, b.c))) →
    pairing eps D vol E G = -(bs.map (fun b => b.q * val (b.x, b.c))).sum

/-- The energy of the field. -/
def fieldEnergy (eps : K) (D : DMesh K g) (vol : DSimplex K → K) (E : DSimplex K → Vec K g) : K := pairing eps D vol E E / 2

/-- `W` is the energy: half the mass times the product of the velocities half a step ago and half a step later, plus the
potential energy of the particles and of the field, where the potentials at the sides are kept by a supply. -/
def HasEnergy (eps : K) (D : DMesh K g) (vol : DSimplex K → K) (dt : K) (bs : List (Body K g)) (phi : Nat → K)
    (E : DSimplex K → Vec K g) (W : K) : Prop :=
  ∃ val : Vec K g × DSimplex K → K, (∀ b ∈ bs, ValueAt D b.c phi b.x (val (b.x, b.c))) ∧
    W = (bs.map (fun b => b.m / 2 * dot b.u (b.kicked dt E) + b.q * val (b.x, b.c))).sum - fieldEnergy eps D vol E

section
variable {ρ V σ φ : Type}

/-- The charged particles of a state; `simplex` is the simplex of a particle. -/
def bodies (weight : Part K g ρ → K) (factor : K) (qom : String → K) (simplex : Part K g ρ → DSimplex K)
    (pops : List (Pop K V (Part K g ρ))) : List (Body K g) :=
  pops.flatMap (fun p => if p.charge = 0 then [] else p.st.items.map (fun q =>
    ⟨p.charge * weight q * factor, p.mass * weight q * factor, qom p.name, q.x, q.u, simplex q⟩))

open TimeLoop (Cfg) in
/-- `W` is the energy of a state of a simulation, times `spacecharge_factor`: of its charged particles, each in the simplex with the
number in its record, and of its potential. -/
def EnergyOf (eps : K) (D : DMesh K g) (vol : DSimplex K → K) (qom : String → K) (cfg : Cfg K V (Part K g ρ) σ φ)
    (j : Ideal K V (Part K g ρ) σ) (W : K) : Prop :=
  ∃ simplex E, (∀ p ∈ j.pops, ∀ q ∈ p.st.items, simplex q ∈ D.cells ∧ (simplex q).index = q.cell) ∧
    (∀ c ∈ D.cells, IsGrad D c (fun k => j.phi.getD k 0) (-(E c))) ∧
    HasEnergy eps D vol cfg.dt (bodies cfg.A.weight (cfg.factor.getD 1) qom simplex j.pops) (fun k => j.phi.getD k 0) E W

open TimeLoop (Cfg) in
/-- From the state `i` to the state `j` no particle is made or lost, and every particle stays in its simplex. -/
def Calm (cfg : Cfg K V (Part K g ρ) σ φ) (sl : Nat) (i j : Ideal K V (Part K g ρ) σ) : Prop :=
  List.Forall₂ (fun s s' => i.made cfg sl s.name = [] ∧ List.Forall₂ (fun q q' => q'.cell = q.cell) s.st.items s'.st.items)
    i.pops j.pops

end

end Dt.Spec
