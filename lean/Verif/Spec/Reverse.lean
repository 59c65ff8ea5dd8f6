import Verif.Spec.Order

/-!
# Specification: running a one-dimensional simulation backwards
-/

namespace Dt.Spec
open Poisson
open TimeLoop (Cfg)
variable {K : Type} [Field K] [LinearOrder K] {ρ V σ φ : Type}

/-- A particle with its motion reversed: the velocity it will have after the next kick, with the opposite sign. -/
def flipped (dt qom : K) (F : K → K) (k : Vec K 1 × Vec K 1 × ρ) : Vec K 1 × Vec K 1 × ρ :=
  (k.1, -(k.2.1 + (qom * dt) • (fun _ => F (k.1 0))), k.2.2)

/-- The state `i'` is the state `i` with the motion of all charged particles reversed. -/
def Reversed (eps : K) (co : Coord) (x : Nat → K) (N : Nat) (v0 : Val K) (vN : K) (qom : String → K) (locate : K → Nat)
    (cfg : Cfg K V (Part K 1 ρ) σ φ) (i i' : Ideal K V (Part K 1 ρ) σ) : Prop :=
  ∃ F : Nat → K, IsField eps co x N v0 vN (chargesOf cfg.A.weight (cfg.factor.getD 1) i.pops) F ∧
  List.Forall₂ (fun s s' => s'.name = s.name ∧ s'.charge = s.charge ∧
    s'.st.items.map kin = if s.charge = 0 then s.st.items.map kin
      else (s.st.items.map kin).map (flipped cfg.dt (qom s.name) (fun y => F (locate y)))) i.pops i'.pops

/-- Between the states `i` and `j` no particle is made or lost, and no particle starts on a mirror. -/
def Lossless (a : K) (L : String → Bool) (cfg : Cfg K V (Part K 1 ρ) σ φ) (sl : Nat) (i j : Ideal K V (Part K 1 ρ) σ) : Prop :=
  List.Forall₂ (fun s s' => i.made cfg sl s.name = [] ∧ s'.st.items.length = s.st.items.length ∧
    (L s.name = true → ∀ q ∈ s.st.items, a < q.x 0)) i.pops j.pops

end Dt.Spec
