import Verif.Spec.Elements
import Verif.Spec.Leapfrog

/-!
# Specification of a plasma on a triangulation

Point charges that move in the electric field of all of them.  No cell numbers, containers, degrees of freedom or
matrices.
-/

namespace Dt.Spec
open Topology
variable {K : Type} [Field K] [LinearOrder K] {g : Nat}

/-- The simplices lie in the domain, and the domain lies behind every facet that belongs to one simplex only: the
domain is convex. -/
structure ConvexDomain (hg : g ≤ 3) (D : DMesh K g) (dom : Vec K g → Bool) : Prop where
  cells : ∀ c ∈ D.cells, ∀ x, InHull (corner D c) x → dom x = true
  behind : ∀ c ∈ D.cells, ∀ (k : Nat) F, c.facets[k]? = some F → (∀ c' ∈ D.cells, F ∈ c'.facets → c'.index = c.index) →
    ∀ i : Fin (g + 1), onFacet g k i.1 → ∀ x, dom x = true → dot (cutNormal hg (c.normal k)) (x - corner D c i) ≤ 0

/-- `E` is the electric field, constant in each simplex, of the point charges `(q, x, c)`, charge `q` at the point `x`
of the simplex `c`: it is minus the gradient of a potential that has the given values at the sides, and obeys Gauss's
law, tested with every function that is linear in each simplex and zero at the sides. -/
def IsFieldOf (eps : K) (D : DMesh K g) (vol : DSimplex K → K) (marker : Int → Int) (lo hi : Int) (v0 vN : K)
    (charges : List (K × Vec K g × DSimplex K)) (E : DSimplex K → Vec K g) : Prop :=
  (∃ phi, Sides D marker lo hi v0 vN phi ∧ ∀ c ∈ D.cells, IsGrad D c phi (-(E c))) ∧
  ∀ v G (val : Vec K g × DSimplex K → K), Vanishes D marker lo hi v → (∀ c ∈ D.cells, IsGrad D c v (G c)) →
    (∀ q ∈ charges, ValueAt D q.2.2 v q.2.1 (val q.2)) →
    pairing eps D vol E G = -(charges.map (fun q => q.1 * val q.2)).sum

section
variable {ρ V σ φ : Type}

/-- The particles as point charges: charge number times weight times `spacecharge_factor`, position, simplex. -/
def pointsIn (weight : Part K g ρ → K) (factor : K) (simplex : Part K g ρ → DSimplex K) (pops : List (Pop K V (Part K g ρ))) :
    List (K × Vec K g × DSimplex K) :=
  pops.flatMap (fun p => p.st.items.map (fun q => (p.charge * weight q * factor, q.x, simplex q)))

open TimeLoop (Cfg) in
/-- The state `j` follows from the state `i`: each particle is in a simplex; every charged particle makes a leapfrog
step in the electric field of the charges of `i`; those outside the domain then are dropped; the particles made by
sources are added. -/
def PlasmaStep (eps : K) (D : DMesh K g) (vol : DSimplex K → K) (marker : Int → Int) (lo hi : Int) (v0 vN : K)
    (dom : Vec K g → Bool) (qom : String → K) (cfg : Cfg K V (Part K g ρ) σ φ) (sl : Nat) (i j : Ideal K V (Part K g ρ) σ) :
    Prop :=
  j.count = i.count + 1 ∧ j.time = i.time + cfg.dt ∧
  ∃ simplex : Part K g ρ → DSimplex K,
    (∀ pop ∈ i.pops, ∀ q ∈ pop.st.items, simplex q ∈ D.cells ∧ InHull (corner D (simplex q)) q.x) ∧
  ∃ E : DSimplex K → Vec K g,
    IsFieldOf eps D vol marker lo hi v0 vN (pointsIn cfg.A.weight (cfg.factor.getD 1) simplex i.pops) E ∧
    List.Forall₂ (fun s s' => s'.name = s.name ∧ s'.charge = s.charge ∧ s'.mass = s.mass ∧
      s'.index = s.index ∧
      s'.st.items.map kin =
        (if s.charge = 0 then s.st.items.map kin
         else (s.st.items.map (fun q => leap cfg.dt (qom s.name) (some (E (simplex q))) (kin q))).filter (fun k => dom k.1)) ++
        (i.made cfg sl s.name).map kin) i.pops j.pops

end

end Dt.Spec
