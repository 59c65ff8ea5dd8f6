import Verif.Spec.Elements
/-!
# What a user expects of the influence of charges on each other
-/
namespace Dt.Spec
open Poisson Topology
variable {K : Type} [Field K] {g : Nat}

/-- `G i` is the potential of a unit charge at vertex `i` between grounded sides. -/
def Influence (eps : K) (D : DMesh K g) (vol : DSimplex K → K) (N : Nat) (marker : Int → Int) (lo hi : Int) (G : Nat → Nat → K) : Prop :=
  ∀ i ≤ N, ∃ F, Electrostatics eps D vol N marker lo hi 0 0 (fun j => if j = i then 1 else 0) (G i) F

/-- `U` is the potential without charges. -/
def Vacuum (eps : K) (D : DMesh K g) (vol : DSimplex K → K) (N : Nat) (marker : Int → Int) (lo hi : Int) (v0 vN : K) (U : Nat → K) : Prop :=
  ∃ F, Electrostatics eps D vol N marker lo hi v0 vN (fun _ => 0) U F

/-- A vertex at which no potential is given. -/
def Free (D : DMesh K g) (marker : Int → Int) (lo hi : Int) (i : Nat) : Prop := ¬ OnSide D marker lo i ∧ ¬ OnSide D marker hi i

/-- The potential at the lower end of an interval: the given one, or, if the end is left open, that of the upper
end. -/
def lowValue (vN : K) : Val K → K
  | .num v => v
  | .unset => vN

end Dt.Spec
