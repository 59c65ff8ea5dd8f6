import Verif.Spec.SheetEnergy

/-!
# Specification of the exact field of charged sheets between plates, and of their momentum

Charges `(q, y)`: a sheet with charge `q` per area at `y`.  There is no mesh in the exact field.
-/

namespace Dt.Spec
open Poisson
variable {K : Type} [Field K] [LinearOrder K]

/-- The part of a sheet at `y` that is below `t`: half of a sheet at `t` itself. -/
def halfBelow (t y : K) : K := if y < t then 1 else if t < y then 0 else 1 / 2

/-- The exact field at `t` of the charges between plates at `a` and `b` with potentials `va` and `vb`; at a sheet, the
mean of the fields on its two sides, which is what acts on the sheet. -/
def sheetField (eps a b va vb : K) (charges : List (K × K)) (t : K) : K :=
  (va - vb) / (b - a) + (charges.map (fun q => q.1 / eps * (halfBelow t q.2 - (b - q.2) / (b - a)))).sum

/-- The exact field at the lower plate, in front of all charges. -/
def lowField (eps a b va vb : K) (charges : List (K × K)) : K :=
  (va - vb) / (b - a) - (charges.map (fun q => q.1 / eps * ((b - q.2) / (b - a)))).sum

/-- The exact field at the upper plate, behind all charges. -/
def highField (eps a b va vb : K) (charges : List (K × K)) : K :=
  lowField eps a b va vb charges + (charges.map (fun q => q.1 / eps)).sum

/-- The charges between two vertices, or on one of them. -/
def within (a b : K) (charges : List (K × K)) : List (K × K) := charges.filter (fun q => decide (a ≤ q.2 ∧ q.2 ≤ b))

/-- The part of the charge of the particles in cell `c` that is nearer to the lower vertex: the centre of charge is
that of this charge at the lower vertex and of `highShare` at the upper one. -/
def lowShare (x : Nat → K) (locate : K → Nat) (charges : List (K × K)) (c : Nat) : K :=
  (charges.map (fun q => if locate q.2 = c then q.1 * ((x (c + 1) - q.2) / (x (c + 1) - x c)) else 0)).sum

def highShare (x : Nat → K) (locate : K → Nat) (charges : List (K × K)) (c : Nat) : K :=
  (charges.map (fun q => if locate q.2 = c then q.1 * ((q.2 - x c) / (x (c + 1) - x c)) else 0)).sum

/-- The momentum. -/
def momentum (bs : List (Sheet K)) : K := (bs.map (fun b => b.m * b.u)).sum

/-- The force that the exact fields at the plates exert on the charges between them. -/
def wallForce (eps a b va vb : K) (charges : List (K × K)) : K :=
  eps / 2 * (highField eps a b va vb charges ^ 2 - lowField eps a b va vb charges ^ 2)

/-- The force on the particles due to the mesh. -/
def meshForce (eps : K) (x : Nat → K) (N : Nat) (locate : K → Nat) (charges : List (K × K)) : K :=
  (∑ c ∈ Finset.range N, (lowShare x locate charges c ^ 2 - highShare x locate charges c ^ 2)) / (2 * eps)

section
variable {ρ V σ φ : Type}

open TimeLoop (Cfg) in
/-- One step of a simulation of sheets between plates: the charged particles make a leapfrog step in a field `F` that
differs from the exact field of all charges by at most the charge in the cell of the particle, divided by `eps`; there
is a mirror at the lower plate for the species of `L`; those beyond a plate are lost; and sources add particles. -/
def SheetStep (eps va vb : K) (x : Nat → K) (N : Nat) (L : String → Bool) (qom : String → K)
    (cfg : Cfg K V (Part K 1 ρ) σ φ) (sl : Nat) (i j : Ideal K V (Part K 1 ρ) σ) : Prop :=
  j.count = i.count + 1 ∧ j.time = i.time + cfg.dt ∧
  ∃ F : K → K, (∀ t, x 0 ≤ t → t ≤ x N → ∃ c < N, x c ≤ t ∧ t ≤ x (c + 1) ∧
    |F t - sheetField eps (x 0) (x N) va vb (chargesOf cfg.A.weight (cfg.factor.getD 1) i.pops) t| ≤
      ((within (x c) (x (c + 1)) (chargesOf cfg.A.weight (cfg.factor.getD 1) i.pops)).map (fun q => |q.1|)).sum / eps) ∧
  List.Forall₂ (fun s s' => s'.name = s.name ∧ s'.charge = s.charge ∧ s'.mass = s.mass ∧ s'.index = s.index ∧
    s'.st.items.map kin =
      (if s.charge = 0 then s.st.items.map kin
       else ((s.st.items.map kin).map (walledLeap (x 0) (L s.name) cfg.dt (qom s.name) F)).filter
        (fun k => decide (x 0 ≤ k.1 0 ∧ k.1 0 ≤ x N))) ++
      (i.made cfg sl s.name).map kin) i.pops j.pops

open TimeLoop (Cfg) in
/-- From the state `i` to the state `j` no particle is made or lost, and charged particles are not reflected. -/
def LineFree (a : K) (L : String → Bool) (cfg : Cfg K V (Part K 1 ρ) σ φ) (sl : Nat) (i j : Ideal K V (Part K 1 ρ) σ) : Prop :=
  List.Forall₂ (fun s s' => i.made cfg sl s.name = [] ∧ List.Forall₂ (fun q q' => s.charge ≠ 0 →
    q'.x 0 = q.x 0 + cfg.dt * q'.u 0 ∧ (L s.name = true → a < q.x 0))
    s.st.items s'.st.items) i.pops j.pops

end

end Dt.Spec
