import Verif.Model.Species

/-!
# Model of the set-up of a `Particle_C` object: coordinate systems, movers, order of the calls

`Particle_C.__init__` (Particle_Module.py:154-448) as far as the coordinate system, the particle
attributes and the C++ modules are concerned, `initialize_particle_mesh` (853-888),
`initialize_particle_integration` (512-593), the dispatch of `advance_charged_particles_in_E_field`
(1391-1413) and `advance_neutral_particles` (1856-1875), and what `record_trajectory_data`
(2679-2818) needs to have been set up.  The names exported by the compiled modules are those of
cpp/particle_solib.cpp:57-101 with the flags of cpp/Makefile_x.part, _r.part, _xy.part, _xyz.part.

Simplifications
* The state of the object is what later calls look for: `pmesh_M`, the dictionary `integrators` and
  the scratch arrays `negE1`, `Eext1`, `zeroE1`.  An attribute not set yet is `none`/`false`.
* The state after an exception is not modelled.
* A mesh is its topological dimension.  A mover call is recorded as (species, mover), what the
  movers do is modelled elsewhere.
* Building C++ modules and importing them is taken to succeed.
-/

namespace Dt
namespace Setup
open Species (Dict Def Registry initSpecies)
variable {K : Type} [Field K] [DecidableEq K]

/-- The coordinate systems. -/
inductive Coord where
  | x | r | xy | xyz
  deriving DecidableEq, Repr

/-- The branches on `coordinate_system` (Particle_Module.py:173-187). -/
def parseCoord : Option String → Except Err Coord
  | some "cartesian_x" => .ok .x
  | some "spherical_r" => .ok .r
  | some "cartesian_xy" => .ok .xy
  | some "cartesian_xyz" => .ok .xyz
  | none => .error .runtime
  | some _ => .error .runtime

/-- `position_coordinates` (Particle_Module.py:173-181). -/
def Coord.position : Coord → List String
  | .x => ["x"]
  | .r => ["r"]
  | .xy => ["x", "y"]
  | .xyz => ["x", "y", "z"]

/-- The names of the particle attributes (Particle_Module.py:192-197, 252-272). -/
def Coord.attributes (c : Coord) : List String :=
  c.position ++ c.position.map (· ++ "0") ++ c.position.map ("u" ++ ·) ++
    ["weight"] ++ ["bitflags"] ++ ["cell_index"] ++ ["unique_ID"] ++ ["crossings"]

/-- The movers that can be found in `integrators`. -/
inductive Mover where
  /-- a bound Python method -/
  | python (name : String)
  /-- a function of the module `particle_<coord>_solib`, compiled for `n` facets per cell -/
  | compiled (c : Coord) (charged : Bool) (facets : Nat)
  deriving DecidableEq, Repr

/-- The movers exported by `particle_<coord>_solib` (cpp/particle_solib.cpp:79-99), by name. -/
def exports : Coord → Dict Mover
  | .xyz =>
    [("advance_neutral_species_2_facets", .compiled .xyz false 2),
     ("advance_neutral_species_3_facets", .compiled .xyz false 3),
     ("advance_neutral_species_4_facets", .compiled .xyz false 4)]
  | .xy =>
    [("advance_charged_species_in_E_field_3_facets", .compiled .xy true 3),
     ("advance_neutral_species_2_facets", .compiled .xy false 2),
     ("advance_neutral_species_3_facets", .compiled .xy false 3)]
  | .x => [("advance_charged_species_in_E_field_2_facets", .compiled .x true 2)]
  | .r => [("advance_charged_species_in_E_field_2_facets", .compiled .r true 2)]

/-- `getattr(self.particle_solib, name)`. -/
def getattrLib (c : Coord) (name : String) : Except Err Mover :=
  match (exports c).find? (fun p => p.1 = name) with
  | some (_, m) => .ok m
  | none => .error .attribute

/-- The object. -/
structure P (K : Type) where
  coord : Coord
  reg : Registry K
  useCpp : Bool
  /-- `particle_solib`: the module of the coordinate system, if there is any species -/
  lib : Option Coord
  force : Option (List String)
  mesh : Option Nat
  arrays : Bool
  integrators : Option (Dict Mover)

/-- The choice of the module for one species (Particle_Module.py:322-372): all four coordinate
systems have one. -/
def pickLib (useCpp : Option Bool) (c : Coord) : Except Err (Option Coord) :=
  match useCpp with
  | none => .error .runtime
  | some true => .ok (some c)
  | some false => .ok none

/-- The species loop: the registry, and `pickLib` for each species. -/
def pickLibs (useCpp : Option Bool) (c : Coord) : List (Def K) → Except Err (Option Coord)
  | [] => .ok none
  | [_] => pickLib useCpp c
  | _ :: d :: ds =>
    match pickLib useCpp c with
    | .error e => .error e
    | .ok _ => pickLibs useCpp c (d :: ds)

/-- `Particle_C(particle_input)`.  `use_cpp_integrators` that is neither True nor None acts as
False. -/
def construct (coord : Option String) (useCpp : Option Bool) (force : Option (List String))
    (defs : List (Def K)) : Except Err (P K) := do
  let c ← parseCoord coord
  let reg ← initSpecies defs
  let lib ← pickLibs useCpp c defs
  return ⟨c, reg, useCpp == some true, lib, force, none, false, none⟩

/-- `initialize_particle_mesh(mesh_M)` (Particle_Module.py:853-888): `MeshEntityArrays` is compiled
for 2, 3 and 4 facets (cpp/mesh_entity_arrays_solib.cpp:95-99). -/
def initMesh (mesh : Option Nat) (p : P K) : Except Err (P K) :=
  match mesh with
  | none => .error .runtime
  | some d =>
    if p.useCpp then
      if d + 1 = 2 ∨ d + 1 = 3 ∨ d + 1 = 4 then .ok { p with mesh := some d } else .error .attribute
    else .ok { p with mesh := some d }

/-- The name looked up for a species (Particle_Module.py:574, 579). -/
def libName (charged : Bool) (nFacets : Nat) : String :=
  (if charged then "advance_charged_species_in_E_field_" else "advance_neutral_species_") ++
    toString nFacets ++ "_facets"

/-- `for sn in ...: integrators[sn] = getattr(particle_solib, ...)` (Particle_Module.py:572-582). -/
def fillCpp (lib : Option Coord) (charged : Bool) (nFacets : Nat) :
    List String → Dict Mover → Except Err (Dict Mover)
  | [], d => .ok d
  | sn :: sns, d =>
    match lib with
    | none => .error .attribute
    | some c =>
      match getattrLib c (libName charged nFacets) with
      | .error e => .error e
      | .ok m => fillCpp lib charged nFacets sns (d.put sn m)

/-- The same loops with Python movers (Particle_Module.py:585-590). -/
def fillPy (name : String) : List String → Dict Mover → Dict Mover
  | [], d => d
  | sn :: sns, d => fillPy name sns (d.put sn (.python name))

/-- `initialize_particle_integration` (Particle_Module.py:512-593). -/
def initIntegration (p : P K) : Except Err (P K) := do
  let p1 : P K := { p with arrays := p.arrays || p.force.isSome }
  if p.useCpp then
    match p.mesh with
    | none => .error .attribute
    | some d =>
      let d1 ← fillCpp p.lib true (d + 1) p.reg.charged []
      let d2 ← fillCpp p.lib false (d + 1) p.reg.neutral d1
      return { p1 with integrators := some d2 }
  else
    let d1 := fillPy "advance_charged_species_in_E_field" p.reg.charged []
    let d2 := fillPy "advance_neutral_species" p.reg.neutral d1
    return { p1 with integrators := some d2 }

/-- `self.integrators[sn]` -/
def integrator (p : P K) (sn : String) : Except Err Mover :=
  match p.integrators with
  | none => .error .attribute
  | some d => d.get sn

/-- The loop of `advance_charged_particles_in_E_field` (Particle_Module.py:1401-1411).  `count` gives
the number of particles of a species, `neg` and `ext` say whether the fields were given.  In C++ mode
`neg_E_field.function` is evaluated first, and a Field_C object as `external_E_field` is no
`dolfin::Function*` (pybind11 raises TypeError). -/
def advanceCharged (count : String → Nat) (neg ext : Bool) (p : P K) :
    List String → Except Err (List (String × Mover))
  | [] => .ok []
  | sn :: sns =>
    if count sn = 0 then advanceCharged count neg ext p sns
    else if p.useCpp ∧ neg = false then .error .attribute
    else do
      let m ← integrator p sn
      if p.useCpp ∧ ext then .error .type
      else do
        let rest ← advanceCharged count neg ext p sns
        return (sn, m) :: rest

/-- The loop of `advance_neutral_particles` (Particle_Module.py:1865-1873). -/
def advanceNeutral (count : String → Nat) (p : P K) : List String → Except Err (List (String × Mover))
  | [] => .ok []
  | sn :: sns =>
    if count sn = 0 then advanceNeutral count p sns
    else do
      let m ← integrator p sn
      let rest ← advanceNeutral count p sns
      return (sn, m) :: rest

/-- `record_trajectory_data` as far as the scratch arrays are concerned (Particle_Module.py:2717-2758):
they are needed for every charged particle with a trajectory that is still there.  `live sn` is the
number of these. -/
def recordNeeds (live : String → Nat) (p : P K) : List String → Except Err Unit
  | [] => .ok ()
  | sn :: sns =>
    if live sn ≠ 0 ∧ p.arrays = false then .error .attribute
    else recordNeeds live p sns

/-! ### A particle record -/

/-- An entry of a particle tuple: a Python float or a Python int. -/
inductive Val (K : Type) where
  | f (v : K)
  | i (v : Int)
  deriving DecidableEq, Repr

/-- A stored record: the float attributes and the four int32 attributes, in the order of the
attributes.  int32 overflow is not modelled. -/
structure Rec (K : Type) where
  floats : List K
  bitflags : Int
  cellIndex : Int
  uniqueID : Int
  crossings : Int
  deriving DecidableEq, Repr

/-- NumPy's conversion to a float field and `cast<double>()`. -/
def Val.float : Val K → K
  | .f v => v
  | .i v => (v : K)

/-- NumPy's conversion to an int field (`trunc` towards zero). -/
def Val.intPy (trunc : K → Int) : Val K → Int
  | .f v => trunc v
  | .i v => v

/-- pybind11's `cast<int>()`: a float is refused (RuntimeError). -/
def Val.intCpp : Val K → Except Err Int
  | .f _ => .error .runtime
  | .i v => .ok v

/-- Assigning a tuple to an element of a structured NumPy array (`push_back` of the Python container,
SegmentedArrayPair_Module.py:212): the length must be the number of fields. -/
def storePy (trunc : K → Int) (c : Coord) (t : List (Val K)) : Except Err (Rec K) :=
  let n := 3 * c.position.length + 1
  match t.drop n with
  | [b, ci, u, cr] => .ok ⟨(t.take n).map Val.float, b.intPy trunc, ci.intPy trunc, u.intPy trunc,
      cr.intPy trunc⟩
  | _ => .error .value

/-- `p[i]` of a pybind11 tuple or list. -/
def at_ (t : List (Val K)) (i : Nat) : Except Err (Val K) :=
  match t[i]? with
  | some v => .ok v
  | none => .error .index

/-- `Pstruct<cartesian_x>::set_from_list_or_tuple` (cpp/Pstruct.h:126-136), and the same function of
`spherical_r` (530-540) with other member names. -/
def setX (t : List (Val K)) : Except Err (Rec K) := do
  let x := (← at_ t 0).float
  let x0 := (← at_ t 1).float
  let ux := (← at_ t 2).float
  let weight := (← at_ t 3).float
  let bitflags ← (← at_ t 4).intCpp
  let cell_index ← (← at_ t 5).intCpp
  let unique_ID ← (← at_ t 6).intCpp
  let crossings ← (← at_ t 7).intCpp
  return ⟨[x, x0, ux, weight], bitflags, cell_index, unique_ID, crossings⟩

/-- `Pstruct<cartesian_xy>::set_from_list_or_tuple` (cpp/Pstruct.h:264-277). -/
def setXY (t : List (Val K)) : Except Err (Rec K) := do
  let x := (← at_ t 0).float
  let y := (← at_ t 1).float
  let x0 := (← at_ t 2).float
  let y0 := (← at_ t 3).float
  let ux := (← at_ t 4).float
  let uy := (← at_ t 5).float
  let weight := (← at_ t 6).float
  let bitflags ← (← at_ t 7).intCpp
  let cell_index ← (← at_ t 8).intCpp
  let unique_ID ← (← at_ t 9).intCpp
  let crossings ← (← at_ t 10).intCpp
  return ⟨[x, y, x0, y0, ux, uy, weight], bitflags, cell_index, unique_ID, crossings⟩

/-- `Pstruct<cartesian_xyz>::set_from_list_or_tuple` (cpp/Pstruct.h:411-428). -/
def setXYZ (t : List (Val K)) : Except Err (Rec K) := do
  let x := (← at_ t 0).float
  let y := (← at_ t 1).float
  let z := (← at_ t 2).float
  let x0 := (← at_ t 3).float
  let y0 := (← at_ t 4).float
  let z0 := (← at_ t 5).float
  let ux := (← at_ t 6).float
  let uy := (← at_ t 7).float
  let uz := (← at_ t 8).float
  let weight := (← at_ t 9).float
  let bitflags ← (← at_ t 10).intCpp
  let cell_index ← (← at_ t 11).intCpp
  let unique_ID ← (← at_ t 12).intCpp
  let crossings ← (← at_ t 13).intCpp
  return ⟨[x, y, z, x0, y0, z0, ux, uy, uz, weight], bitflags, cell_index, unique_ID, crossings⟩

/-- `push_back(py::tuple)` of the C++ container (cpp/SegmentedArrayPair.h:352-392): the record. -/
def storeCpp (c : Coord) (t : List (Val K)) : Except Err (Rec K) :=
  match c with
  | .x => setX t
  | .r => setX t
  | .xy => setXY t
  | .xyz => setXYZ t

/-- `as_tuple` (cpp/Pstruct.h:155-159, 280-284, 431-435, 559-563), and the tuple of a NumPy record. -/
def Rec.asTuple (q : Rec K) : List (Val K) :=
  q.floats.map .f ++ [.i q.bitflags, .i q.cellIndex, .i q.uniqueID, .i q.crossings]

/-- The names given to the members in NumPy (cpp/numpy_types_solib.cpp:33-36). -/
def cppNames : Coord → List String
  | .x => ["x", "x0", "ux", "weight", "bitflags", "cell_index", "unique_ID", "crossings"]
  | .r => ["r", "r0", "ur", "weight", "bitflags", "cell_index", "unique_ID", "crossings"]
  | .xy => ["x", "y", "x0", "y0", "ux", "uy", "weight", "bitflags", "cell_index", "unique_ID",
      "crossings"]
  | .xyz => ["x", "y", "z", "x0", "y0", "z0", "ux", "uy", "uz", "weight", "bitflags", "cell_index",
      "unique_ID", "crossings"]

/-- The dictionary of `as_dict` (cpp/Pstruct.h:184-189, 309-314, 460-465, 588-593). -/
def Rec.asDict (c : Coord) (q : Rec K) : Dict (Val K) := (cppNames c).zip q.asTuple

/-- A list of particle tuples of a user's distribution method (`create_from_list`,
Particle_Module.py:596-645), stored one by one in Python. -/
def storeAll (trunc : K → Int) (c : Coord) (ts : List (List (Val K))) : Except Err (List (Rec K)) :=
  ts.mapM (storePy trunc c)

end Setup
end Dt
