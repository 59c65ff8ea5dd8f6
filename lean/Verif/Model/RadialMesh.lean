import Verif.Model.LineMesh
import Mathlib.Algebra.Order.Field.Basic

/-!
# Model of the radial mesh and of the cell volumes

`UserMesh1DS_C.create_mesh` (UserMesh_y_Fields_Spherical1D_Module.py:218-341),
`Mesh_C.compute_cell_volume_dict` (Dolfin_Module.py:501-532).
-/

namespace Dt
namespace Radial
variable {K : Type} [Field K]

/-- The coordinates of `df_m.UnitIntervalMesh(nr)`: vertex `i` is at `i/nr`. -/
def unitVertex (nr : Nat) (i : Nat) : K := (i : K) / (nr : K)

/-- `map_coordinate` (UserMesh_y_Fields_Spherical1D_Module.py:318-321); `pw` is
`x ↦ x**stretch`. -/
def mapCoordinate (rmin rmax : K) (pw : K → K) (x : K) : K := rmin + (rmax - rmin) * pw x

/-- The vertices of the radial mesh (323-328). -/
def vertex (rmin rmax : K) (pw : K → K) (nr : Nat) (i : Nat) : K :=
  mapCoordinate rmin rmax pw (unitVertex nr i)

/-- The volume of a cell with vertices `x0`, `x1` (Dolfin_Module.py:513-530); the native volume
of an interval is its length. -/
def cellVolume [LinearOrder K] (coordinateSystem : String) (pi x0 x1 : K) : Except Err K :=
  if coordinateSystem = "Cartesian" then .ok (if x1 - x0 < 0 then -(x1 - x0) else x1 - x0)
  else if coordinateSystem = "1D-spherical-radial" then
    .ok ((4 / 3) * pi * (x1 * x1 * x1 - x0 * x0 * x0))
  else .error .value

/-- The dictionary for the cells `0..n-1` of an interval mesh. -/
def cellVolumes [LinearOrder K] (coordinateSystem : String) (pi : K) (x : Nat → K) (n : Nat) :
    Except Err (List K) :=
  (List.range n).mapM (fun i => cellVolume coordinateSystem pi (x i) (x (i + 1)))

end Radial
end Dt
