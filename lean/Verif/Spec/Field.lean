import Mathlib.Algebra.Field.Basic
import Verif.Model.Field
import Mathlib.Algebra.BigOperators.Group.List.Basic
import Mathlib.Algebra.BigOperators.Group.List.Lemmas

/-! # Specification vocabulary for fields on the mesh -/

namespace Dt.Spec

/-- The part of a contribution `b` with index list `idx` that goes to DOF `j`. -/
def share {K : Type} [AddCommMonoid K] (idx : List Nat) (b : List K) (j : Nat) : K :=
  ((idx.zip b).map (fun db => if db.1 = j then db.2 else 0)).sum

example : share [0, 1] [(2 : Int), 3] 1 = 3 := by decide

/-- How many cells of a list are attached to DOF `j`. -/
def touching (dofs : Nat → List Nat) (cells : List Nat) (j : Nat) : Nat :=
  cells.countP (fun c => decide (j ∈ dofs c))

/-- What the theorems require of a scalar function space with `n` DOFs for the particle `p`:
the DOFs of its cell are distinct and in range and there is one basis value for each. -/
structure Fits {K α : Type} (A : Fld.Attrs K α) (S : Fld.Space K α) (n : Nat) (p : α) : Prop where
  range : ∀ i ∈ S.dofs (A.cell p), i < n
  nodup : (S.dofs (A.cell p)).Nodup
  len : (S.basis p).length = (S.dofs (A.cell p)).length

/-- The contribution of one particle to DOF `j`: its weight times the value at the particle of the
basis function of `j`. -/
def contrib {K α : Type} [Field K] (A : Fld.Attrs K α) (S : Fld.Space K α) (j : Nat) (p : α) : K :=
  A.weight p * share (S.dofs (A.cell p)) (S.basis p) j

/-- A field with one DOF per cell (constant in the cell): cell `k` has DOF `d k`, different for
different cells, `n` cells, and a particle of cell `k` counts for cell `k`. -/
structure CellField {K α : Type} (S : Fld.Space K α) (d : Nat → Nat) (n len : Nat) : Prop where
  one : ∀ k < n, S.dofs k = [d k]
  inj : ∀ k < n, ∀ l < n, d k = d l → k = l
  range : ∀ k < n, d k < len

end Dt.Spec
