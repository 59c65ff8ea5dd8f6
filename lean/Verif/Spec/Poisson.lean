import Verif.Model.Poisson
import Verif.Spec.Field
import Mathlib.Algebra.Order.Field.Basic

/-! # Specification of the one-dimensional electrostatics -/

namespace Dt.Spec
open Poisson
variable {K : Type} [Field K]

/-- `U` solves the linear equations.  Dolfin's solver is assumed to return such a `U`. -/
def Solves (N : Nat) (A : Nat → Nat → K) (b U : List K) : Prop :=
  U.length = N + 1 ∧ ∀ i ≤ N, ∑ j ∈ Finset.range (N + 1), A i j * U.getD j 0 = b.getD i 0

/-- The vertices are in order; radii are not negative. -/
structure Grid [LinearOrder K] (co : Coord) (x : Nat → K) (N : Nat) : Prop where
  pos : 1 ≤ N
  lt : ∀ c < N, x c < x (c + 1)
  nonneg : co = .spherical → 0 ≤ x 0

/-- The marker tells the two ends apart from each other and from the rest. -/
structure Marks (marker : Nat → Int) (N : Nat) (lo hi : Int) : Prop where
  first : marker 0 = lo
  last : marker N = hi
  ne : lo ≠ hi
  inner : ∀ i, 0 < i → i < N → marker i ≠ lo ∧ marker i ≠ hi

/-- The area a field line passes in the cell from `a` to `b`: 1 per unit of area, or the mean of `r²`,
the area per steradian. -/
def area : Coord → K → K → K
  | .cartesian, _, _ => 1
  | .spherical, a, b => (a * a + a * b + b * b) / 3

/-- The electric field in a cell, from its negative. -/
def eField (negE : List K) (c : Nat) : K := -(negE.getD c 0)

/-- The flux of `eps E` through a cell. -/
def flux (eps : K) (co : Coord) (x : Nat → K) (E : Nat → K) (c : Nat) : K :=
  eps * (area co (x c) (x (c + 1)) * E c)

/-- Gauss's law: the flux grows from cell to cell by the charge between. -/
def Gauss (eps : K) (co : Coord) (x : Nat → K) (N : Nat) (Q E : Nat → K) : Prop :=
  ∀ a b, a ≤ b → b < N → flux eps co x E b - flux eps co x E a = ∑ i ∈ Finset.Ioc a b, Q i

/-- The potential at `t` of a unit charge (per area and permittivity) at `y` between grounded plates at `a` and
`b`. -/
def green [LinearOrder K] (a b t y : K) : K := (min t y - a) * (b - max t y) / (b - a)

/-- The potential at `t` of charges `(q, y)` between plates at `a` and `b` with potentials `va` and `vb`. -/
def plates [LinearOrder K] (eps a b va vb : K) (charges : List (K × K)) (t : K) : K :=
  va + (vb - va) * (t - a) / (b - a) + (charges.map (fun qy => qy.1 / eps * green a b t qy.2)).sum

/-- The names of the ends. -/
def lowName : Coord → String
  | .cartesian => "xmin"
  | .spherical => "rmin"
def highName : Coord → String
  | .cartesian => "xmax"
  | .spherical => "rmax"

/-- `phi_BCs` gives the tags of the ends, a value at the upper end, and at the lower end a value or, on the radial
mesh, `'unset'`. -/
structure Given (co : Coord) (d : List (String × Int × Val K)) (lo hi : Int) (v0 : Val K) (vN : K) : Prop where
  low : d.lookup (lowName co) = some (lo, v0)
  high : d.lookup (highName co) = some (hi, .num vN)
  unset : v0 = .unset → co = .spherical

/-- What is expected of a potential with charge `Q i` at vertex `i`: the given values at the ends, and Gauss's
law; if the lower end is left open (`'unset'`) no flux enters there, so the flux through each cell is the charge
below it. -/
structure Electrostatic (eps : K) (co : Coord) (x : Nat → K) (N : Nat) (v0 : Val K) (vN : K) (Q : Nat → K)
    (phi negE : List K) : Prop where
  high : phi[N]? = some vN
  low : ∀ v, v0 = .num v → phi[0]? = some v
  gradient : negE.length = N ∧ ∀ c < N, ∃ a b e, phi[c]? = some a ∧ phi[c + 1]? = some b ∧ negE[c]? = some e ∧
    e * (x (c + 1) - x c) = b - a
  gauss : Gauss eps co x N Q (eField negE)
  enclosed : v0 = .unset → ∀ c < N, flux eps co x (eField negE) c = ∑ i ∈ Finset.range (c + 1), Q i

/-- The value at `y` in cell `c` of the basis function of vertex `j`. -/
def lam (x : Nat → K) (c : Nat) (y : K) (j : Nat) : K :=
  share [c, c + 1] [(x (c + 1) - y) / (x (c + 1) - x c), (y - x c) / (x (c + 1) - x c)] j

/-- Charges in cells: charge, position, cell. -/
structure Located [LinearOrder K] (x : Nat → K) (N : Nat) (q : K × K × Nat) : Prop where
  cell : q.2.2 < N
  low : x q.2.2 ≤ q.2.1
  high : q.2.1 ≤ x (q.2.2 + 1)

end Dt.Spec
