import Verif.Spec.SelfForce

/-!
# Specification of the exact field of charged shells

Charges `(q, y)`: a shell of radius `y` with charge `q` (per `4 pi`).  There is no mesh in the exact field.
-/

namespace Dt.Spec
open Poisson
variable {K : Type} [Field K] [LinearOrder K]

/-- The exact field at the radius `t`: the charge inside, divided by `eps t²`; on a shell, half of its charge counts. -/
def shellField (eps : K) (charges : List (K × K)) (t : K) : K :=
  (charges.map (fun q => q.1 * halfBelow t q.2)).sum / (eps * t ^ 2)

/-- The charge inside the radius `a`. -/
def inside (a : K) (charges : List (K × K)) : K := ((charges.filter (fun q => decide (q.2 < a))).map (·.1)).sum

/-- The exact voltage between the radii `a` and `b` with charge `Q` inside `a` and none between. -/
def coulomb (eps Q a b : K) : K := Q / eps * (1 / a - 1 / b)

section
variable {ρ V σ φ : Type}

open TimeLoop (Cfg) in
/-- One step of a simulation of shells: the charged particles make a leapfrog step in a field `F`, which is that of
Coulomb's law up to an error given by the width of the cell and the charge in the cell (but for the cell around the
centre); there is a mirror at the lower end for the species of `L`; those beyond the ends are lost; and sources add
particles. -/
def ShellStep (eps : K) (x : Nat → K) (N : Nat) (L : String → Bool) (qom : String → K)
    (cfg : Cfg K V (Part K 1 ρ) σ φ) (sl : Nat) (i j : Ideal K V (Part K 1 ρ) σ) : Prop :=
  j.count = i.count + 1 ∧ j.time = i.time + cfg.dt ∧
  ∃ F : K → K, (∀ t, x 0 ≤ t → t ≤ x N → ∃ c < N, x c ≤ t ∧ t ≤ x (c + 1) ∧ (0 < x c →
    |F t - shellField eps (chargesOf cfg.A.weight (cfg.factor.getD 1) i.pops) t| ≤
      (|inside (x c) (chargesOf cfg.A.weight (cfg.factor.getD 1) i.pops)| * (1 / x c ^ 2 - 1 / x (c + 1) ^ 2) +
      ((within (x c) (x (c + 1)) (chargesOf cfg.A.weight (cfg.factor.getD 1) i.pops)).map (fun q => |q.1|)).sum / x c ^ 2) / eps)) ∧
  List.Forall₂ (fun s s' => s'.name = s.name ∧ s'.charge = s.charge ∧ s'.mass = s.mass ∧ s'.index = s.index ∧
    s'.st.items.map kin =
      (if s.charge = 0 then s.st.items.map kin
       else ((s.st.items.map kin).map (walledLeap (x 0) (L s.name) cfg.dt (qom s.name) F)).filter
        (fun k => decide (x 0 ≤ k.1 0 ∧ k.1 0 ≤ x N))) ++
      (i.made cfg sl s.name).map kin) i.pops j.pops

end

end Dt.Spec
