import Verif.Spec.Shells
import Verif.Spec.CppPlasma

/-!
# Specification of a one-dimensional electrostatic simulation with the compiled movers

As `Spec.Shells`; the field that acts on a particle on a vertex is that of one of the two cells there.
-/

namespace Dt.Spec.Comp
open TimeLoop (Cfg)
open Poisson
variable {K : Type} [Field K] [LinearOrder K] {ρ V σ φ : Type}

/-- The state `j` follows from the state `i`: every charged particle makes a step in the field of the charges of
`i`; those beyond the ends are dropped; the particles made by sources are added. -/
def FieldStep (eps : K) (co : Coord) (x : Nat → K) (N : Nat) (v0 : Val K) (vN : K) (L : String → Bool)
    (qom : String → K) (cfg : Cfg K V (Part K 1 ρ) σ φ) (sl : Nat) (i j : Ideal K V (Part K 1 ρ) σ) : Prop :=
  j.count = i.count + 1 ∧ j.time = i.time + cfg.dt ∧
  ∃ cell : Part K 1 ρ → Nat,
    (∀ pop ∈ i.pops, ∀ q ∈ pop.st.items, cell q < N ∧ x (cell q) ≤ q.x 0 ∧ q.x 0 ≤ x (cell q + 1)) ∧
  ∃ F : Nat → K, IsField eps co x N v0 vN (chargesOf cfg.A.weight (cfg.factor.getD 1) i.pops) F ∧
  List.Forall₂ (fun s s' => s'.name = s.name ∧ s'.charge = s.charge ∧ s'.mass = s.mass ∧
    s'.index = s.index ∧
    s'.st.items.map kin =
      (if s.charge = 0 then s.st.items.map kin
       else (s.st.items.map (fun q => walledLeap (x 0) (L s.name) cfg.dt (qom s.name) (fun _ => F (cell q)) (kin q))).filter
        (fun k => decide (x 0 ≤ k.1 0 ∧ k.1 0 ≤ x N))) ++
      (made cfg sl s.name i).map kin) i.pops j.pops

end Dt.Spec.Comp
