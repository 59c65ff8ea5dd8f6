import Verif.Spec.ReverseMesh
import Mathlib.LinearAlgebra.Pi

/-!
# Specification: the same mesh with other numbers, turned, reflected or moved
-/

namespace Dt.Spec
open Topology
open TimeLoop (Cfg)
variable {K : Type} [Field K] {g : Nat} {ρ V σ τ φ : Type}

/-- A rigid motion or reflection. -/
structure Rigid (K : Type) [Field K] (g : Nat) where
  turn : Vec K g ≃ₗ[K] Vec K g
  shift : Vec K g
  keeps : ∀ u v, dot (turn u) (turn v) = dot u v

namespace Rigid

def pos (T : Rigid K g) (x : Vec K g) : Vec K g := T.turn x + T.shift

/-- Position, velocity and the rest. -/
def kin (T : Rigid K g) (k : Vec K g × Vec K g × ρ) : Vec K g × Vec K g × ρ := (T.pos k.1, T.turn k.2.1, k.2.2)

end Rigid

/-- The potential `v` is prescribed at vertex `i`. -/
def Fixed (D : DMesh K g) (marker : Int → Int) (lo hi : Int) (v0 vN : K) (i : Nat) (v : K) : Prop :=
  (OnSide D marker hi i ∧ v = vN) ∨ (OnSide D marker lo i ∧ ¬ OnSide D marker hi i ∧ v = v0)

/-- The mesh `D'` is the mesh `D` moved by `T`.  Its vertices have the numbers `num`, its cells are listed in any order, and the corners
of a cell, too.  At the same vertices the same potentials are prescribed. -/
structure Renumbered (T : Rigid K g) (num : Equiv.Perm Nat) (cell back : DSimplex K → DSimplex K) (D D' : DMesh K g) (vol vol' : DSimplex K → K)
    (fixed fixed' : Nat → K → Prop) : Prop where
  cells : (D.cells.map cell).Perm D'.cells
  back : ∀ c ∈ D.cells, back (cell c) = c
  corners : ∀ c ∈ D.cells, ∃ s : Equiv.Perm (Fin (g + 1)), ∀ j : Fin (g + 1),
    ((cell c).verts[(s j).1]?).getD 0 = num ((c.verts[j.1]?).getD 0) ∧ corner D' (cell c) (s j) = T.pos (corner D c j)
  vols : ∀ c ∈ D.cells, vol' (cell c) = vol c
  fixed : ∀ i v, fixed i v ↔ fixed' (num i) v

/-- The particles of `i'` are those of `i` moved by `T`, in any order. -/
def MovedBy (T : Rigid K g) (i : Ideal K V (Part K g ρ) σ) (i' : Ideal K V (Part K g ρ) τ) : Prop :=
  List.Forall₂ (fun s s' => s'.name = s.name ∧ s'.charge = s.charge ∧ (s'.st.items.map kin).Perm ((s.st.items.map kin).map T.kin)) i.pops i'.pops

end Dt.Spec
