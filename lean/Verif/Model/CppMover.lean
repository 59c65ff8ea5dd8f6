import Verif.Model.Geometry

/-!
# Model of the scratch array of the C++ movers

`static double pCoord2[6]` (cpp/particle.h:62) holds the position of a particle and the
start of its path; the facet search is given the address of element `pDim`.  The array
keeps its contents between calls.  It is modelled as a function of the index.
-/

namespace Dt
variable {K : Type}

/-- The scratch array. -/
abbrev Scratch (K : Type) := Nat → K

/-- Assignment to an element. -/
def Scratch.put (s : Scratch K) (i : Nat) (a : K) : Scratch K := fun j => if j = i then a else s j

/-- What a callee sees that is given the address of element `i` and reads `d` elements. -/
def Scratch.from (s : Scratch K) (i d : Nat) : Vec K d := fun j => s (i + j)

/-- advance_charged_species_in_E_field_cartesian_x.cpp:333-341 and
advance_charged_species_in_E_field_spherical_r.cpp:338-346 (pDim = 1). -/
def fillX (s : Scratch K) (x x0 : Vec K 1) : Scratch K := (s.put 0 (x 0)).put 1 (x0 0)

/-- advance_charged_species_in_E_field_cartesian_xy.cpp:295-304 (pDim = 2). -/
def fillXY (s : Scratch K) (x x0 : Vec K 2) : Scratch K :=
  (((s.put 0 (x 0)).put 1 (x 1)).put 2 (x0 0)).put (2 + 1) (x0 1)

/-- advance_neutral_species_cartesian_xyz.cpp:200-206 (pDim = 3). -/
def fillXYZ (s : Scratch K) (x x0 : Vec K 3) : Scratch K :=
  (((((s.put 0 (x 0)).put 1 (x 1)).put 2 (x 2)).put 3 (x0 0)).put 4 (x0 1)).put 5 (x0 2)

/-- advance_neutral_species_cartesian_xy.cpp:181-185 (pDim = 2). -/
def fillNeutralXY (s : Scratch K) (x x0 : Vec K 2) : Scratch K :=
  (((s.put 0 (x 0)).put 1 (x 1)).put 3 (x0 0)).put 4 (x0 1)

/-- The move vector computed by that mover (187-188). -/
def dxNeutralXY [Field K] (s : Scratch K) (x x0 : Vec K 2) : Vec K 2 := fun i =>
  fillNeutralXY s x x0 i - fillNeutralXY s x x0 (3 + i)

end Dt
