import Verif.Model.Track
import Verif.Spec.Geometry

/-!
# Specification of conforming meshes and well-behaved boundary conditions
-/

namespace Dt
variable {K : Type} [Field K] [LinearOrder K] {g p : Nat} {τ ρ : Type}

/-- A conforming mesh of regular simplices whose boundary facets are all marked. -/
structure Mesh.Conforming (M : Mesh K g) : Prop where
  regular : ∀ (ci : Int) (c : Cell K g), M.cell ci = some c → c.Regular
  /-- The facets of a cell have different, non-negative mesh indices. -/
  nodup : ∀ (ci : Int) (c : Cell K g), M.cell ci = some c → c.facets.Nodup
  nonneg : ∀ (ci : Int) (c : Cell K g) (F : Int), M.cell ci = some c → F ∈ c.facets → 0 ≤ F
  /-- The neighbour across facet `k` exists, has that facet too, sees it from the other
  side, and contains its points. -/
  shared : ∀ (ci : Int) (c : Cell K g) (k : Nat) (cj : Int), M.cell ci = some c →
    c.neighbors[k]? = some cj → cj ≠ -1 →
    ∃ (c' : Cell K g) (k' : Nat), M.cell cj = some c' ∧ c'.facets[k']? = c.facets[k]? ∧
      (∀ n n' : Vec K g, c.normals[k]? = some n → c'.normals[k']? = some n' →
        ∃ a : K, 0 < a ∧ n' = -(a • n)) ∧
      ∀ q : Vec K g, c.Has q → c.OnPlane k q → c'.Has q
  marked : ∀ (ci : Int) (c : Cell K g) (k : Nat) (F : Int), M.cell ci = some c →
    c.neighbors[k]? = some (-1) → c.facets[k]? = some F → M.marker F ≠ 0

/-- Mesh facet `F` is a facet of some cell with a neighbour across it. -/
def Mesh.Interior (M : Mesh K g) (F : Int) : Prop :=
  ∃ (ci : Int) (c : Cell K g) (k : Nat) (cj : Int), M.cell ci = some c ∧
    c.facets[k]? = some F ∧ c.neighbors[k]? = some cj ∧ cj ≠ -1

/-- Mesh facet `F` is a facet, with normal `n`, of some cell without a neighbour across
it. -/
def Mesh.Boundary (M : Mesh K g) (F : Int) (n : Vec K g) : Prop :=
  ∃ (ci : Int) (c : Cell K g) (k : Nat), M.cell ci = some c ∧
    c.facets[k]? = some F ∧ c.neighbors[k]? = some (-1) ∧ c.normals[k]? = some n

/-- A boundary condition that the tracking can cope with.  It returns normally; it
leaves the crossing point alone; on an interior facet it does not move the particle; on
the boundary it deletes the particle or sends it back to the inner side.  `fresh`: the
condition may rely on `dx` being the move vector whose part `1 - frac` is still to be
made. -/
structure GoodBC (h : g ≤ p) (M : Mesh K g) (fresh : Prop)
    (bc : Int → τ → BCall K g p ρ → Except Err (τ × Part K p ρ)) : Prop where
  total : ∀ st call n, call.normal = some n → M.marker call.facet ≠ 0 →
    ∃ r, bc (M.marker call.facet) st call = .ok r
  start : ∀ st call st' q', bc (M.marker call.facet) st call = .ok (st', q') → q'.x0 = call.part.x0
  interior : ∀ st call st' q', bc (M.marker call.facet) st call = .ok (st', q') →
    M.Interior call.facet → q'.x = call.part.x
  boundary : ∀ st call st' q' n, bc (M.marker call.facet) st call = .ok (st', q') →
    M.Boundary call.facet n → call.normal = some n →
    (fresh → call.part.x - call.part.x0 = (1 - call.frac) • call.dx) →
    0 < dot n (proj h (call.part.x - call.part.x0)) →
    q'.del = true ∨ dot n (proj h (q'.x - q'.x0)) ≤ 0

/-- `s'` is reached from `s` by `k` facet crossings, all of them made because the
particle is outside the current cell, none of them ending the search. -/
inductive CrossN (h : g ≤ p) (M : Mesh K g) (v : Variant)
    (bc : Int → τ → BCall K g p ρ → Except Err (τ × Part K p ρ)) :
    Nat → Trk K p τ ρ → Trk K p τ ρ → Prop
  | zero (s) : CrossN h M v bc 0 s s
  | succ {k s s1 s'} (out : M.isInside (proj h s.part.x) s.cell = .ok false)
      (e : crossOnce h M v bc s = .ok (s1, false)) (r : CrossN h M v bc k s1 s') :
      CrossN h M v bc (k + 1) s s'

end Dt
