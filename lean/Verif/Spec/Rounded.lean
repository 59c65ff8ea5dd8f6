import Verif.Model.Rounded

/-!
# Specification: machine numbers, and ways through the cells of a mesh
-/

namespace Dt.Spec
variable {K : Type} [Field K] [LinearOrder K] {g : Nat}

/-- What is known of every binary floating-point format and rounding mode, as long as nothing overflows: rounding is monotone,
machine numbers are not changed, 0 and 1 are machine numbers, and scalar products are machine numbers. -/
structure IsRounding (A : Arith K g) : Prop where
  mono : ∀ a b, a ≤ b → A.fl a ≤ A.fl b
  idem : ∀ a, A.fl (A.fl a) = A.fl a
  zero : A.fl 0 = 0
  one : A.fl 1 = 1
  dot : ∀ u v, A.fl (A.dot u v) = A.dot u v

/-- Exact arithmetic. -/
def exactly : Arith K g := ⟨id, Dt.dot, Cell.contains⟩

/-- `Walk M k a b`: a way from cell `a` to cell `b` in `k` moves; a move goes to a neighbour of the cell, or stays in a cell
that has a side without neighbour. -/
inductive Walk (M : Mesh K g) : Nat → Int → Int → Prop
  | start (a : Int) : Walk M 0 a a
  | next {k a b b'} (c : Cell K g) : Walk M k a b → M.cell b = some c → b' ∈ c.neighbors → b' ≠ -1 → Walk M (k + 1) a b'
  | turn {k a b} (c : Cell K g) : Walk M k a b → M.cell b = some c → -1 ∈ c.neighbors → Walk M (k + 1) a b

/-- The tables of the mesh are complete: every cell has `g + 1` vertices, normals, facets and neighbours, and the neighbours
are cells or -1. -/
structure Complete (M : Mesh K g) : Prop where
  dim : 1 ≤ g ∧ g ≤ 3
  lengths : ∀ i c, M.cell i = some c → c.verts.length = g + 1 ∧ c.normals.length = g + 1 ∧ c.facets.length = g + 1 ∧ c.neighbors.length = g + 1
  neighbors : ∀ i c, M.cell i = some c → ∀ j ∈ c.neighbors, j = -1 ∨ ∃ c', M.cell j = some c'

end Dt.Spec
