import Mathlib.Algebra.Field.Basic
import Mathlib.Algebra.BigOperators.Group.List.Basic
import Mathlib.Algebra.Order.Field.Basic
import Verif.Model.Py

/-! # Specification of species sums and histories, in terms of lists of particles -/

namespace Dt
namespace Spec
variable {K : Type} [Field K] {α : Type}

/-- Number of physical particles of a population. -/
def number (weight : α → K) (xs : List α) : K := (xs.map weight).sum

/-- Squared speed of a particle. -/
def speed2 (vel : List (α → K)) (p : α) : K := (vel.map (fun u => u p * u p)).sum

/-- Kinetic energy of a population. -/
def kinetic (weight : α → K) (vel : List (α → K)) (mass : K) (xs : List α) : K :=
  (xs.map (fun p => mass * weight p * speed2 vel p / 2)).sum

/-- `labelled cell xs ys`: `ys` are the particles `xs` with new cells, and `ok` holds of each. -/
inductive Relabelled (setCell : α → Int → α) (ok : α → Prop) : List α → List α → Prop
  | nil : Relabelled setCell ok [] []
  | cons {x : α} {xs ys : List α} (c : Int) : ok (setCell x c) → Relabelled setCell ok xs ys →
      Relabelled setCell ok (x :: xs) (setCell x c :: ys)

end Spec
end Dt
