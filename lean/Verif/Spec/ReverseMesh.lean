import Verif.Spec.Plasma

/-!
# Specification: running a simulation on a triangulation backwards
-/

namespace Dt.Spec
open Topology
open TimeLoop (Cfg)
variable {K : Type} [Field K] [LinearOrder K] {g : Nat} {ρ V σ φ : Type}

/-- No particle is on the border of two simplices: `place` gives the only simplex there is at the position of a particle. -/
def PlacedIn (D : DMesh K g) (place : Vec K g → DSimplex K) (i : Ideal K V (Part K g ρ) σ) : Prop :=
  ∀ pop ∈ i.pops, ∀ q ∈ pop.st.items, place q.x ∈ D.cells ∧ InHull (corner D (place q.x)) q.x ∧
    ∀ c ∈ D.cells, InHull (corner D c) q.x → c = place q.x

/-- A particle with its motion reversed: the velocity it will have after the next kick, with the opposite sign. -/
def flippedIn (dt qom : K) (e : Vec K g) (k : Vec K g × Vec K g × ρ) : Vec K g × Vec K g × ρ :=
  (k.1, -(k.2.1 + (qom * dt) • e), k.2.2)

/-- The state `i'` is the state `i` with the motion of all charged particles reversed. -/
def ReversedIn (eps : K) (D : DMesh K g) (vol : DSimplex K → K) (marker : Int → Int) (lo hi : Int) (v0 vN : K) (qom : String → K)
    (place : Vec K g → DSimplex K) (cfg : Cfg K V (Part K g ρ) σ φ) (i i' : Ideal K V (Part K g ρ) σ) : Prop :=
  ∃ E, IsFieldOf eps D vol marker lo hi v0 vN (pointsIn cfg.A.weight (cfg.factor.getD 1) (fun q => place q.x) i.pops) E ∧
  List.Forall₂ (fun s s' => s'.name = s.name ∧ s'.charge = s.charge ∧
    s'.st.items.map kin = if s.charge = 0 then s.st.items.map kin
      else (s.st.items.map kin).map (fun k => flippedIn cfg.dt (qom s.name) (E (place k.1)) k)) i.pops i'.pops

/-- Between the states `i` and `j` no particle is made or lost. -/
def NothingLost (made : String → List (Part K g ρ)) (i j : Ideal K V (Part K g ρ) σ) : Prop :=
  List.Forall₂ (fun s s' => made s.name = [] ∧ s'.st.items.length = s.st.items.length) i.pops j.pops

end Dt.Spec
