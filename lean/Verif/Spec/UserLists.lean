import Mathlib.Algebra.Order.Field.Basic
import Verif.Spec.Sources
import Verif.Model.UserLists
/-!
# What a user expects of a list of particles
-/
namespace Dt.Spec
open Sources UserLists

variable {K : Type}

/-- A record with which a particle can start in `dim` dimensions: positions and velocities of that
dimension, the previous position is the position, a positive weight, no cell yet, no crossings, and it is
not marked as deleted. -/
structure Starts [Zero K] [LT K] (dim : Nat) (r : Rec K) : Prop where
  x : r.x.length = dim
  u : r.u.length = dim
  before : r.x0 = r.x
  weight : 0 < r.weight
  cell : r.cell = -1
  crossings : r.crossings = 0
  alive : r.flags % 2 = 0

/-- From the counter `c` the function `l` lists the particles `rs`, which have `dim` coordinates, and
leaves the counter at `c'`. -/
def ListsFrom [DivisionRing K] (dim : Nat) (l : Lister K) (c : Nat) (rs : List (Rec K)) (c' : Nat) : Prop :=
  ∃ ts, l "listed" c = .ok (rs.length, ts, c') ∧ ts.mapM (record dim) = .ok rs

/-- A sequence of calls of such functions: all particles listed. -/
inductive Calls [DivisionRing K] : List (Nat × Lister K) → Nat → List (Rec K) → Nat → Prop
  | nil (c : Nat) : Calls [] c [] c
  | cons {dim : Nat} {l : Lister K} {ls : List (Nat × Lister K)} {c c1 c2 : Nat} {rs rs' : List (Rec K)}
      (h : ListsFrom dim l c rs c1) (t : Calls ls c1 rs' c2) : Calls ((dim, l) :: ls) c (rs ++ rs') c2

end Dt.Spec
