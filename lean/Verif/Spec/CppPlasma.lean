import Verif.Spec.Plasma
import Verif.Spec.CppLoop

/-!
# Specification of a plasma moved by the compiled code

As `Spec.Plasma`; only the particles made by the sources are those of the compiled simulation on lists.
-/

namespace Dt.Spec.Comp
open TimeLoop (Cfg)
open Topology
variable {K : Type} [Field K] {g : Nat} {ρ V σ φ : Type}

/-- The particles created for the species `name` in the step that follows the state `i`. -/
def made {α : Type} [DecidableEq K] (cfg : Cfg K V α σ φ) (sl : Nat) (name : String) (i : Ideal K V α σ) : List α :=
  match moveAll sl (fun sn => cfg.move sn (cfg.fieldOf i.phi) (i.count + 1) (i.time + cfg.dt)) i.pops i.side with
  | .error _ => []
  | .ok (_, side) => created name (i.count + 1) (i.time + cfg.dt) cfg.sources side

/-- The state `j` follows from the state `i`: each particle is in a simplex; every charged particle makes a leapfrog
step in the electric field of the charges of `i`; those outside the domain then are dropped; the particles made by
sources are added. -/
def PlasmaStep [LinearOrder K] (eps : K) (D : DMesh K g) (vol : DSimplex K → K) (marker : Int → Int) (lo hi : Int) (v0 vN : K)
    (dom : Vec K g → Bool) (qom : String → K) (cfg : Cfg K V (Part K g ρ) σ φ) (sl : Nat) (i j : Ideal K V (Part K g ρ) σ) :
    Prop :=
  j.count = i.count + 1 ∧ j.time = i.time + cfg.dt ∧
  ∃ simplex : Part K g ρ → DSimplex K,
    (∀ pop ∈ i.pops, ∀ q ∈ pop.st.items, simplex q ∈ D.cells ∧ InHull (corner D (simplex q)) q.x) ∧
  ∃ E : DSimplex K → Vec K g,
    IsFieldOf eps D vol marker lo hi v0 vN (pointsIn cfg.A.weight (cfg.factor.getD 1) simplex i.pops) E ∧
    List.Forall₂ (fun s s' => s'.name = s.name ∧ s'.charge = s.charge ∧ s'.mass = s.mass ∧
      s'.index = s.index ∧
      s'.st.items.map kin =
        (if s.charge = 0 then s.st.items.map kin
         else (s.st.items.map (fun q => leap cfg.dt (qom s.name) (some (E (simplex q))) (kin q))).filter (fun k => dom k.1)) ++
        (made cfg sl s.name i).map kin) i.pops j.pops

end Dt.Spec.Comp
