import Verif.Model.RadialMesh
import Mathlib.Algebra.Order.Field.Basic

/-!
# Model of the marking of mesh boundaries

`create_mesh` and the constructors of the three mesh modules:
UserMesh_y_Fields_Spherical1D_Module.py:154-341, UserMesh_y_Fields_FE_XYZ_Module.py:85-422,
UserMesh_y_Fields_FE2D_Module.py:95-365.

Simplifications
* The meshes made by Dolfin (`IntervalMesh`, `RectangleMesh`, `BoxMesh`) are given by their facets:
  the points Dolfin tests, and whether the facet is on the boundary.  Dolfin's own checks of the
  arguments and its numbering of the facets of rectangles are not modelled.
* A marker is a function of the facet.  A boundary dictionary is a list of (name, tag) pairs.
* Plotting and writing the mesh to a file are omitted.
-/

namespace Dt
namespace Mark
variable {K : Type} [Field K] [LinearOrder K] {ι : Type}

/-- A boundary dictionary, e.g. `{'xmin': 1, 'xmax': 2}`, in insertion order. -/
abbrev Dict := List (String × Int)

/-- `d[name]`. -/
def Dict.get (d : Dict) (name : String) : Except Err Int :=
  match d.find? (fun e => e.1 == name) with
  | some e => .ok e.2
  | none => .error .key

/-- What `SubDomain.mark` looks at for one facet: its vertices and its midpoint (a point of a
one-dimensional mesh is its own midpoint), as (x, y), and whether it belongs to one cell only. -/
structure Facet (K : Type) where
  pts : List (K × K)
  exterior : Bool

/-- `abs`. -/
def dist (a b : K) : K := if a - b < 0 then -(a - b) else a - b

/-- `tol = 1.0e-10`. -/
def tol : K := 1 / 10 ^ 10

/-- A subdomain: `inside(x, on_boundary)`. -/
abbrev SubDomain (K : Type) := K × K → Bool → Bool

/-- `XBoundary(v).inside`, `XBoundary_C(v).inside` (UserMesh_y_Fields_Spherical1D_Module.py:128-131,
UserMesh_y_Fields_FE_XYZ_Module.py:96-98, UserMesh_y_Fields_FE2D_Module.py:114-116). -/
def xBoundary (v : K) : SubDomain K := fun p onBoundary => onBoundary && decide (dist p.1 v < tol)

/-- `YBoundary(v).inside`, `YBoundary_C(v).inside` (UserMesh_y_Fields_FE_XYZ_Module.py:113-117,
UserMesh_y_Fields_FE2D_Module.py:128-132). -/
def yBoundary (v : K) : SubDomain K := fun p onBoundary => onBoundary && decide (dist p.2 v < tol)

/-- `marker.set_all(0)`. -/
def setAll0 : ι → Int := fun _ => 0

/-- `subdomain.mark(marker, tag)` of Dolfin: every facet all of whose points are inside gets the tag;
`on_boundary` is true for the facets of the boundary.  The tag is converted to `size_t`. -/
def SubDomain.mark (sub : SubDomain K) (facet : ι → Facet K) (marker : ι → Int) (tag : Int) :
    Except Err (ι → Int) :=
  if tag < 0 then .error .type
  else .ok (fun f => if (facet f).pts.all (fun p => sub p (facet f).exterior) then tag else marker f)

/-! ### The meshes -/

/-- The facets of an interval mesh with `n` cells and vertices `x 0 .. x n`: facet `i` is vertex `i`. -/
def lineFacet (x : Nat → K) (n : Nat) (i : Nat) : Facet K :=
  ⟨[(x i, 0)], decide (i = 0 ∨ i = n)⟩

/-- Vertex `i` of `IntervalMesh(n, a, b)`, and the grid lines of `RectangleMesh`. -/
def gridPoint (a b : K) (n : Nat) (i : Nat) : K := a + (i : K) * ((b - a) / (n : K))

/-- The facets of a rectangle mesh: an edge of the grid parallel to x, parallel to y, or an edge
inside a grid cell (the diagonals, for all values of `diagonal`). -/
inductive RFacet (K : Type) where
  | h (i j : Nat)
  | v (i j : Nat)
  | inner (a b : K × K)

/-- The edge between two points. -/
def edge (a b : K × K) (exterior : Bool) : Facet K :=
  ⟨[a, b, ((a.1 + b.1) / 2, (a.2 + b.2) / 2)], exterior⟩

/-- `RectangleMesh(Point(xmin, ymin), Point(xmax, ymax), nx, ny, diagonal)`. -/
def rectFacet (xmin xmax ymin ymax : K) (nx ny : Nat) : RFacet K → Facet K
  | .h i j => edge (gridPoint xmin xmax nx i, gridPoint ymin ymax ny j)
      (gridPoint xmin xmax nx (i + 1), gridPoint ymin ymax ny j) (decide (j = 0 ∨ j = ny))
  | .v i j => edge (gridPoint xmin xmax nx i, gridPoint ymin ymax ny j)
      (gridPoint xmin xmax nx i, gridPoint ymin ymax ny (j + 1)) (decide (i = 0 ∨ i = nx))
  | .inner a b => edge a b false

/-- The markers a mesh object gets; `none` is Python's None. -/
structure Marks (ι : Type) where
  field : Option (ι → Int)
  particle : Option (ι → Int)

/-! ### create_mesh -/

/-- Mark the ends of an interval or two sides of a rectangle: look up both names, then mark both
(UserMesh_y_Fields_Spherical1D_Module.py:256-277, 289-306, UserMesh_y_Fields_FE_XYZ_Module.py:236-256,
UserMesh_y_Fields_FE2D_Module.py:246-266). -/
def markTwo (facet : ι → Facet K) (d : Dict) (lo hi : String) (a b : K) : Except Err (ι → Int) := do
  let tlo ← d.get lo
  let thi ← d.get hi
  let m ← (xBoundary a).mark facet setAll0 tlo
  (xBoundary b).mark facet m thi

/-- Mark the four sides of a rectangle: look up the four names, then mark
(UserMesh_y_Fields_FE_XYZ_Module.py:331-352, UserMesh_y_Fields_FE2D_Module.py:271-304). -/
def markFour (facet : ι → Facet K) (d : Dict) (n1 n2 n3 n4 : String) (a b c e : K) :
    Except Err (ι → Int) := do
  let t1 ← d.get n1
  let t2 ← d.get n2
  let t3 ← d.get n3
  let t4 ← d.get n4
  let m ← (xBoundary a).mark facet setAll0 t1
  let m ← (xBoundary b).mark facet m t2
  let m ← (yBoundary c).mark facet m t3
  (yBoundary e).mark facet m t4

/-- `if dict is not None: ... else: marker = None`. -/
def ifDict (d : Option Dict) (f : Dict → Except Err (ι → Int)) : Except Err (Option (ι → Int)) :=
  match d with
  | none => .ok none
  | some d => do
    let m ← f d
    return some m

/-- `UserMesh1DS_C.create_mesh`, markers (UserMesh_y_Fields_Spherical1D_Module.py:230-306): the facets
are marked on the unit interval, before the vertices are moved. -/
def createRadial (nr : Nat) (fieldDict particleDict : Option Dict) : Except Err (Marks Nat) := do
  let facet := lineFacet (K := K) (Radial.unitVertex nr) nr
  let field ← ifDict fieldDict (fun d => markTwo facet d "rmin" "rmax" (0 : K) 1)
  let particle ← ifDict particleDict (fun d => markTwo facet d "rmin" "rmax" (0 : K) 1)
  return ⟨field, particle⟩

/-- `UserMesh_C.create_mesh`, 1D (UserMesh_y_Fields_FE_XYZ_Module.py:217-303).  The particle marker is
set to zero and never marked; the lines for sources use names that do not exist (291-292). -/
def createX (xmin xmax : K) (nx : Nat) (fieldDict particleDict sourceDict : Option Dict) :
    Except Err (Marks Nat) := do
  let facet := lineFacet (gridPoint xmin xmax nx) nx
  let field ← ifDict fieldDict (fun d => markTwo facet d "xmin" "xmax" xmin xmax)
  let particle ← ifDict particleDict (fun _ => .ok setAll0)
  if sourceDict.isSome then .error .name
  else return ⟨field, particle⟩

/-- `UserMesh_C.create_mesh`, 2D (UserMesh_y_Fields_FE_XYZ_Module.py:306-360): a field dictionary and a
source dictionary end the program. -/
def createXY (xmin xmax ymin ymax : K) (nx ny : Nat) (fieldDict particleDict sourceDict : Option Dict) :
    Except Err (Marks (RFacet K)) := do
  let facet := rectFacet xmin xmax ymin ymax nx ny
  if fieldDict.isSome then .error .exit
  else do
    let particle ← ifDict particleDict
      (fun d => markFour facet d "xmin" "xmax" "ymin" "ymax" xmin xmax ymin ymax)
    if sourceDict.isSome then .error .exit
    else return ⟨none, particle⟩

/-- `UserMesh_C.create_mesh`, 3D (UserMesh_y_Fields_FE_XYZ_Module.py:362-396): nothing is marked. -/
def createXYZ (fieldDict particleDict sourceDict : Option Dict) : Except Err (Marks ι) := do
  if fieldDict.isSome then .error .exit
  else do
    let particle ← ifDict particleDict (fun _ => .ok setAll0)
    if sourceDict.isSome then .error .exit
    else return ⟨none, particle⟩

/-- The mesh that results: 1D, 2D or 3D. -/
inductive Created (K : Type) where
  | line (m : Marks Nat)
  | rect (m : Marks (RFacet K))
  | box (m : Marks Nat)

/-- `UserMesh_C.create_mesh` (UserMesh_y_Fields_FE_XYZ_Module.py:182-422): the dimension is that of the
box between `pmin` and `pmax`; `(nx,) = cells_on_side` raises ValueError for another number of
values. -/
def createMesh (pmin pmax : K × K × K) (cells : List Nat) (fieldDict particleDict sourceDict : Option Dict) :
    Except Err (Created K) :=
  if pmin.2.1 = pmax.2.1 ∧ pmin.2.2 = pmax.2.2 then
    match cells with
    | [nx] => do return .line (← createX pmin.1 pmax.1 nx fieldDict particleDict sourceDict)
    | _ => .error .value
  else if pmin.2.2 = pmax.2.2 then
    match cells with
    | [nx, ny] => do
      return .rect (← createXY pmin.1 pmax.1 pmin.2.1 pmax.2.1 nx ny fieldDict particleDict sourceDict)
    | _ => .error .value
  else
    match cells with
    | [_, _, _] => do return .box (← createXYZ fieldDict particleDict sourceDict)
    | _ => .error .value

/-- `UserMesh2DCirc_C.create_mesh`, markers (UserMesh_y_Fields_FE2D_Module.py:197-292): the rectangle
`[rmin, rmax] × [0, 1]` is marked before it is bent; without a particle dictionary the particle marker
is zero. -/
def createCircle (rmin rmax : K) (nr nt : Nat) (fieldDict particleDict : Option Dict) :
    Except Err (Marks (RFacet K)) := do
  let facet := rectFacet rmin rmax 0 1 nr nt
  let field ← ifDict fieldDict (fun d => markTwo facet d "rmin" "rmax" rmin rmax)
  match particleDict with
  | none => return ⟨field, some setAll0⟩
  | some d => do
    let particle ← markFour facet d "rmin" "rmax" "thmin" "thmax" rmin rmax 0 1
    return ⟨field, some particle⟩

/-! ### The constructors -/

/-- An attribute of the mesh object: missing, None, or a marker. -/
inductive Attr (ι : Type) where
  | missing
  | isNone
  | is (m : ι → Int)

/-- The value assigned by `self.marker = marker`. -/
def Attr.ofOption : Option (ι → Int) → Attr ι
  | none => .isNone
  | some m => .is m

/-- `pmesh_M.particle_boundary_marker[facet]` (Particle_Module.py:1696). -/
def Attr.at (a : Attr ι) (f : ι) : Except Err Int :=
  match a with
  | .missing => .error .attribute
  | .isNone => .error .type
  | .is m => .ok (m f)

/-- The marker attributes of a mesh object. -/
structure MeshObj (ι : Type) where
  field : Attr ι
  particle : Attr ι

/-- Where the mesh and the markers come from: `mesh_file`, `field_boundary_file`,
`particle_boundary_file` (for the latter two: the marker in the file). -/
structure Files (ι : Type) where
  mesh : Bool
  field : Option (ι → Int)
  particle : Option (ι → Int)

/-- `UserMesh1DS_C.__init__` (UserMesh_y_Fields_Spherical1D_Module.py:154-195): the markers that are
read from files are assigned to local variables (188-191). -/
def initRadial (create : Except Err (Marks ι)) (files : Files ι) : Except Err (MeshObj ι) :=
  if files.mesh then .ok ⟨.missing, .missing⟩
  else do
    let m ← create
    return ⟨.ofOption m.field, .ofOption m.particle⟩

/-- Replace an attribute if there is a file. -/
def fromFile (a : Attr ι) : Option (ι → Int) → Attr ι
  | none => a
  | some m => .is m

/-- `UserMesh2DCirc_C.__init__` (UserMesh_y_Fields_FE2D_Module.py:153-189). -/
def initCircle (create : Except Err (Marks ι)) (files : Files ι) : Except Err (MeshObj ι) := do
  let obj ← initRadial create { files with field := none, particle := none }
  return ⟨fromFile obj.field files.field, fromFile obj.particle files.particle⟩

end Mark
end Dt
