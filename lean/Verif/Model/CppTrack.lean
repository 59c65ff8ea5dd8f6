import Verif.Model.Track
import Verif.Model.CppMover
import Verif.Model.CppGeometry

/-!
# Model of the motion of one particle in the compiled movers

The tracking loop of `advance_charged_species_in_E_field_cartesian_x`, `..._spherical_r`,
`..._cartesian_xy`, `advance_neutral_species_cartesian_xy` and `..._cartesian_xyz`
(cpp/advance_*.cpp).  The loops are copies of each other; they differ in the number of coordinates
and in the use of the scratch array `pCoord2` (a `Layout`).

Simplifications
* Doubles are elements of a linearly ordered field.
* `facetTupl[2].cast<py::array_t<double>>()` of the facet normal is the identity.
* `exit(EXIT_FAILURE)` is the error `exit`; the constructor of `dolfin::Cell` throws (`runtime`)
  if there is no such cell.
* A user callback missing from `bcFunctionDict` is a call through a null member pointer: it belongs
  to the function `bc`, which can return the error `ub`.
-/

namespace Dt

/-- What the compiled movers read for one cell: `pcellPtr->entities(0)`,
`pcellPtr->entities(tDim-1)` (advance_charged_species_in_E_field_cartesian_xy.cpp:271, 337),
`meshEntityArrays->get_cell_neighbors` (391) and the arrays used by `find_facet`. -/
structure CppMeshCell (K : Type) where
  vertices : List Nat
  facets : List Int
  neighbors : List Int
  geo : CppCell K

/-- The mesh as seen by the compiled movers: `mesh.coordinates()`, the cells and
`particle_boundary_marker`. -/
structure CppMesh (K : Type) where
  coords : List K
  cell : Int → Option (CppMeshCell K)
  marker : Int → Int

/-- The use of the scratch array by a mover with `p` coordinates: how it is filled from `x` and
`x0`, and the offset of the second operand in `dx[i] = pCoord2[i] - pCoord2[off+i]`.  The facet
search is given `&pCoord2[pDim]`. -/
structure Layout (K : Type) (p : Nat) where
  fill : Scratch K → Vec K p → Vec K p → Scratch K
  off : Nat

/-- advance_charged_species_in_E_field_cartesian_x.cpp:333-354, ..._spherical_r.cpp:338-359. -/
def layoutX {K : Type} : Layout K 1 := ⟨fillX, 1⟩

/-- advance_charged_species_in_E_field_cartesian_xy.cpp:295-316. -/
def layoutXY {K : Type} : Layout K 2 := ⟨fillXY, 2⟩

/-- advance_neutral_species_cartesian_xyz.cpp:200-214. -/
def layoutXYZ {K : Type} : Layout K 3 := ⟨fillXYZ, 3⟩

/-- advance_neutral_species_cartesian_xy.cpp:181-193. -/
def layoutNeutralXY {K : Type} : Layout K 2 := ⟨fillNeutralXY, 3⟩

section
variable {K : Type} [Field K] [LinearOrder K] {g p : Nat} {τ ρ : Type}

/-- `new dolfin::Cell(mesh, pCellIndex)`. -/
def CppMesh.lookup (M : CppMesh K) (ci : Int) : Except Err (CppMeshCell K) :=
  match M.cell ci with
  | some c => .ok c
  | none => .error .runtime

/-- The loop condition: `particlePosition` is filled and tested
(advance_charged_species_in_E_field_cartesian_xy.cpp:270-280, 428-433). -/
def CppMesh.isInside (g : Nat) (M : CppMesh K) (x : Vec K p) (ci : Int) : Except Err Bool := do
  let c ← M.lookup ci
  isInsideVertices g g M.coords c.vertices (List.ofFn x)

/-- A marked facet (advance_charged_species_in_E_field_cartesian_xy.cpp:357-389): the point is
recorded for a trajectory particle, then the callback is called with the array `dx`. -/
def cppAtMarked (bc : Int → τ → BCall K g p ρ → Except Err (τ × Part K p ρ))
    (value : Int) (f : K) (n : Option (Vec K g)) (mFacet : Int) (s : Trk K p τ ρ) :
    Except Err (Trk K p τ ρ) := do
  let (st', part') ← bc value s.st ⟨s.part, mFacet, f, n, s.dxS⟩
  return { s with
    st := st', part := part',
    events := s.events ++ (if s.part.traj then [(s.part, s.tStart)] else []) }

/-- The next cell (advance_charged_species_in_E_field_cartesian_xy.cpp:391-416). -/
def cppNextCell (c : CppMeshCell K) (cFacet : Int) (s : Trk K p τ ρ) :
    Except Err (Trk K p τ ρ × Bool) := do
  let new ← cGet c.neighbors cFacet
  if new = noCell then
    if s.part.del then return ({ s with part := { s.part with cell := noCell } }, true)
    else return (s, false)
  else return ({ s with part := { s.part with cell := new }, cell := new }, false)

/-- The body of the loop after the count has been checked
(advance_charged_species_in_E_field_cartesian_xy.cpp:294-426), and the scratch array. -/
def cppCrossOnce (h : g ≤ p) (L : Layout K p) (M : CppMesh K)
    (bc : Int → τ → BCall K g p ρ → Except Err (τ × Part K p ρ))
    (sc : Scratch K) (s : Trk K p τ ρ) : Except Err (Trk K p τ ρ × Bool × Scratch K) := do
  let c ← M.lookup s.cell
  let sc' := L.fill sc s.part.x s.part.x0
  let dx : Vec K p := fun i => sc' i - sc' (L.off + i)
  let (cFacet, f, n) ← cppFindFacet g c.geo (sc'.from p g) (proj h dx)
  if cFacet = noFacet then .error .exit
  else do
    let mFacet ← cGet c.facets cFacet
    if mFacet = s.last then .error .exit
    else do
      let s1 := { s with
        count := s.count + 1
        tStart := s.tStart + f * s.rem
        rem := (1 - f) * s.rem
        part := { s.part with x0 := fun i => s.part.x0 i + f * dx i }
        last := mFacet
        dxS := dx }
      let s2 ← if M.marker mFacet ≠ 0 then cppAtMarked bc (M.marker mFacet) f n mFacet s1
        else .ok s1
      let (s3, brk) ← cppNextCell c cFacet s2
      return (s3, brk, sc')

/-- The loop `while (! is_inside_vertices(...))`
(advance_charged_species_in_E_field_cartesian_xy.cpp:280-434); the first argument is
`MAX_FACET_CROSS_COUNT - facetCrossCount`. -/
def cppTrack (h : g ≤ p) (L : Layout K p) (M : CppMesh K)
    (bc : Int → τ → BCall K g p ρ → Except Err (τ × Part K p ρ)) :
    Nat → Scratch K → Trk K p τ ρ → Except Err (Trk K p τ ρ × Scratch K)
  | left, sc, s => do
    let inside ← M.isInside g s.part.x s.cell
    if inside then .ok (s, sc)
    else match left with
      | 0 => .error .exit
      | left + 1 => do
        let (s', brk, sc') ← cppCrossOnce h L M bc sc s
        if brk then .ok (s', sc') else cppTrack h L M bc left sc' s'

/-- Acceleration, if there is a field (advance_charged_species_in_E_field_cartesian_xy.cpp:237-243). -/
def cppAccel (qmdt : K) (E : Option (Vec K p)) (q : Part K p ρ) : Part K p ρ :=
  match E with
  | none => q
  | some e => { q with u := fun i => q.u i + qmdt * e i }

/-- Motion (advance_charged_species_in_E_field_cartesian_xy.cpp:246-253,
advance_neutral_species_cartesian_xyz.cpp:148-156). -/
def cppMoveBy (dt : K) (q : Part K p ρ) : Part K p ρ :=
  { q with x0 := q.x, x := fun i => q.x i + q.u i * dt }

/-- One particle of a charged species
(advance_charged_species_in_E_field_cartesian_xy.cpp:232-437): accelerated if there is a field,
moved (`accel_only` is not looked at), tracked, and the number of crossings stored.  The state is
the user state, the static array `dx` and the static array `pCoord2`. -/
def cppMoveCharged (h : g ≤ p) (L : Layout K p) (M : CppMesh K)
    (bc : Int → τ → BCall K g p ρ → Except Err (τ × Part K p ρ)) (maxCross : Nat)
    (time dt qmdt : K) (E : Part K p ρ → Option (Vec K p))
    (st : (τ × Vec K p) × Scratch K) (q : Part K p ρ) :
    Except Err (((τ × Vec K p) × Scratch K) × Part K p ρ × List (Part K p ρ × K)) := do
  let (s, sc') ← cppTrack h L M bc maxCross st.2
    (startTrk time dt st.1.1 st.1.2 (cppMoveBy dt (cppAccel qmdt (E q) q)))
  return (((s.st, s.dxS), sc'), { s.part with crossings := s.count }, s.events)

/-- One particle of a neutral species (advance_neutral_species_cartesian_xyz.cpp:143-323,
advance_neutral_species_cartesian_xy.cpp). -/
def cppMoveNeutral (h : g ≤ p) (L : Layout K p) (M : CppMesh K)
    (bc : Int → τ → BCall K g p ρ → Except Err (τ × Part K p ρ)) (maxCross : Nat)
    (time dt : K) (st : (τ × Vec K p) × Scratch K) (q : Part K p ρ) :
    Except Err (((τ × Vec K p) × Scratch K) × Part K p ρ × List (Part K p ρ × K)) :=
  cppMoveCharged h L M bc maxCross time dt 0 (fun _ => none) st q

end
end Dt
