import Verif.Spec.Shells

/-!
# Specification of the energy of charged sheets or shells

Positions, velocities, and the field between the vertices `x 0 < ... < x N`; nothing of the program.
-/

namespace Dt.Spec
open Poisson
variable {K : Type} [Field K] [LinearOrder K]

/-- A sheet or shell: charge, mass, charge-to-mass ratio, position, and velocity half a step ago. -/
structure Sheet (K : Type) where
  q : K
  m : K
  qom : K
  y : K
  u : K

/-- The velocity half a step later, in the field `F y`. -/
def Sheet.kicked (dt : K) (F : K → K) (b : Sheet K) : K := b.u + b.qom * dt * F b.y

/-- From `b` to `b'`: a leapfrog step, or none, if there is no charge. -/
structure Sheet.Moves (dt : K) (F : K → K) (b b' : Sheet K) : Prop where
  q : b'.q = b.q
  m : b'.m = b.m
  qom : b'.qom = b.qom
  motion : (b'.u = b.kicked dt F ∧ b'.y = b.y + dt * b'.u) ∨ (b.q = 0 ∧ b'.u = b.u ∧ b'.y = b.y)

/-- The integral of the field `F` from `y` to the upper end. -/
def rise (x : Nat → K) (N : Nat) (F : Nat → K) (y : K) : K :=
  ∑ c ∈ Finset.range N, (x (c + 1) - x c) * below (x c) (x (c + 1)) y * F c

/-- The energy of the field. -/
def lineEnergy (eps : K) (co : Coord) (x : Nat → K) (N : Nat) (F : Nat → K) : K :=
  (∑ c ∈ Finset.range N, (x (c + 1) - x c) * flux eps co x F c * F c) / 2

/-- The work of the supply that has put the charge `A` on the electrode at the lower end; an open end has none. -/
def supplied (vN : K) : Val K → K → K
  | .unset, _ => 0
  | .num v, A => A * (v - vN)

/-- The energy: half the mass times the product of the velocities half a step ago and half a step later, plus charge
times potential, less the energy of the field. -/
def sheetEnergy (eps : K) (co : Coord) (x : Nat → K) (N : Nat) (vN dt : K) (locate : K → Nat) (bs : List (Sheet K))
    (F : Nat → K) : K :=
  (bs.map (fun b => b.m / 2 * (b.u * b.kicked dt (fun y => F (locate y))) + b.q * (vN + rise x N F b.y))).sum -
    lineEnergy eps co x N F

section
variable {ρ V σ φ : Type}

/-- The particles of a state. -/
def sheetsOf (weight : Part K 1 ρ → K) (factor : K) (qom : String → K) (pops : List (Pop K V (Part K 1 ρ))) : List (Sheet K) :=
  pops.flatMap (fun p => p.st.items.map (fun q =>
    ⟨p.charge * weight q * factor, p.mass * weight q * factor, qom p.name, q.x 0, q.u 0⟩))

open TimeLoop (Cfg) in
/-- `W` is the energy of a state, times `spacecharge_factor`: of its particles and of their field. -/
def LineEnergyOf (eps : K) (co : Coord) (x : Nat → K) (N : Nat) (v0 : Val K) (vN : K) (qom : String → K) (locate : K → Nat)
    (cfg : Cfg K V (Part K 1 ρ) σ φ) (j : Ideal K V (Part K 1 ρ) σ) (W : K) : Prop :=
  ∃ F, IsField eps co x N v0 vN (chargesOf cfg.A.weight (cfg.factor.getD 1) j.pops) F ∧
    W = sheetEnergy eps co x N vN cfg.dt locate (sheetsOf cfg.A.weight (cfg.factor.getD 1) qom j.pops) F

open TimeLoop (Cfg) in
/-- From the state `i` to the state `j` no particle is made or lost; charged particles stay between the same vertices and
are not reflected (they move with their new velocity, and are not at the mirror, if there is one). -/
def LineCalm (a : K) (L : String → Bool) (locate : K → Nat) (cfg : Cfg K V (Part K 1 ρ) σ φ) (sl : Nat)
    (i j : Ideal K V (Part K 1 ρ) σ) : Prop :=
  List.Forall₂ (fun s s' => i.made cfg sl s.name = [] ∧ List.Forall₂ (fun q q' => s.charge ≠ 0 →
    locate (q'.x 0) = locate (q.x 0) ∧ q'.x 0 = q.x 0 + cfg.dt * q'.u 0 ∧ (L s.name = true → a < q.x 0))
    s.st.items s'.st.items) i.pops j.pops

end

end Dt.Spec
