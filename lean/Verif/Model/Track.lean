import Verif.Model.Geometry

/-!
# Model of the motion of one particle on the mesh

The part of the mesh movers that deals with a single particle:
`advance_charged_species_in_E_field` (Particle_Module.py:1574-1799),
`move_particles_in_electrostatic_field` (1170-1330) and
`advance_neutral_species` (1984-2090).

Simplifications
* A particle record is a `Part`: positions, starting positions, velocities,
  `cell_index`, the two flag bits, `crossings`, and everything else (`rest`).
* `p` is the number of position coordinates of a particle, `g ≤ p` that of the
  mesh; the mesh functions use the first `g` coordinates.
* A boundary-condition callback is an arbitrary function of what the call passes
  and of `self.dx`; it returns the modified record.  User state is `τ`.
* Printing is omitted.
-/

namespace Dt

/-- A particle record (attributes: Particle_Module.py:252-278). -/
structure Part (K : Type) (p : Nat) (ρ : Type) where
  x : Vec K p
  x0 : Vec K p
  u : Vec K p
  cell : Int
  del : Bool
  traj : Bool
  crossings : Nat
  rest : ρ

/-- What a boundary-condition callback gets to see
(Particle_Module.py:1771): the record, the mesh-level facet index, `dx_fraction`,
`facet_normal`, and the contents of `self.dx`, to which the callbacks hold a
reference (UserParticles_1D.py:103). -/
structure BCall (K : Type) (g p : Nat) (ρ : Type) where
  part : Part K p ρ
  facet : Int
  frac : K
  normal : Option (Vec K g)
  dx : Vec K p

/-- In what the three movers differ inside the tracking loop.
* `sharesDx`: the move vector is written into `self.dx`
  (`dx[:] = ...`, 1658, 1247) or a new array is bound (`dx = ...`, 2021);
* `noName`: `fncName` is not defined in `advance_neutral_species`, so that building
  the error message raises NameError;
* `datum`: what happens before the point is stored when a trajectory particle
  crosses a marked facet (the argument list of `record_trajectory_datum`). -/
structure Variant where
  sharesDx : Bool
  noName : Bool
  datum : Except Err Unit

/-- The exception raised for a given cause. -/
def Variant.err (v : Variant) (e : Err) : Err := if v.noName then .name else e

section
variable {K : Type} [Field K] [LinearOrder K] {g p : Nat} {τ ρ : Type}

/-- The first `g` coordinates. -/
def proj (h : g ≤ p) (x : Vec K p) : Vec K g := fun i => x (Fin.castLE h i)

/-- The variables of the tracking loop (Particle_Module.py:1613-1630). -/
structure Trk (K : Type) (p : Nat) (τ ρ : Type) where
  st : τ
  part : Part K p ρ
  cell : Int
  last : Int
  count : Nat
  tStart : K
  rem : K
  dxS : Vec K p
  events : List (Part K p ρ × K)

/-- The point recorded for a trajectory particle at a marked facet
(Particle_Module.py:1712-1768). -/
def crossEvents (v : Variant) (s : Trk K p τ ρ) : Except Err (List (Part K p ρ × K)) :=
  if s.part.traj then
    match v.datum with
    | .ok _ => .ok [(s.part, s.tStart)]
    | .error e => .error e
  else .ok []

/-- What is done at a marked facet (Particle_Module.py:1704-1771): a point is
recorded for a trajectory particle (an event), then the callback registered for the
marker value is called. -/
def atMarked (v : Variant)
    (bc : Int → τ → BCall K g p ρ → Except Err (τ × Part K p ρ))
    (value : Int) (f : K) (n : Option (Vec K g)) (mFacet : Int) (s : Trk K p τ ρ) :
    Except Err (Trk K p τ ρ) := do
  let evs ← crossEvents v s
  let (st', part') ← bc value s.st ⟨s.part, mFacet, f, n, s.dxS⟩
  return { s with st := st', part := part', events := s.events ++ evs }

/-- Look up the next cell (Particle_Module.py:1772-1787).  The Boolean is `true` for
the `break`. -/
def nextCell (c : Cell K g) (cFacet : Int) (s : Trk K p τ ρ) : Except Err (Trk K p τ ρ × Bool) := do
  let new ← pyGet c.neighbors cFacet
  if new = noCell then
    if s.part.del then return ({ s with part := { s.part with cell := noCell } }, true)
    else return (s, false)
  else return ({ s with part := { s.part with cell := new }, cell := new }, false)

/-- The body of the `while` loop after the count has been checked
(Particle_Module.py:1636-1793). -/
def crossOnce (h : g ≤ p) (M : Mesh K g) (v : Variant)
    (bc : Int → τ → BCall K g p ρ → Except Err (τ × Part K p ρ)) (s : Trk K p τ ρ) :
    Except Err (Trk K p τ ρ × Bool) := do
  let dx := s.part.x - s.part.x0
  let dxS := if v.sharesDx then dx else s.dxS
  let (cFacet, f, n) ← M.findFacet (proj h s.part.x0) (proj h dx) s.cell
  if cFacet = noFacet then .error (v.err .noFacet)
  else do
    let c ← M.lookup s.cell
    let mFacet ← pyGet c.facets cFacet
    if mFacet = s.last then .error (v.err .sameFacet)
    else do
      let s1 := { s with
        count := s.count + 1
        tStart := s.tStart + f * s.rem
        rem := s.rem - f * s.rem
        part := { s.part with x0 := s.part.x0 + f • dx }
        last := mFacet
        dxS := dxS }
      let s2 ← if M.marker mFacet ≠ 0 then atMarked v bc (M.marker mFacet) f n mFacet s1
        else .ok s1
      nextCell c cFacet s2

/-- The tracking loop `while not is_inside_cell(...)`
(Particle_Module.py:1627-1796).  The first argument is the number of crossings still
allowed, `MAX_FACET_CROSS_COUNT - facetCrossCount`. -/
def track (h : g ≤ p) (M : Mesh K g) (v : Variant)
    (bc : Int → τ → BCall K g p ρ → Except Err (τ × Part K p ρ)) :
    Nat → Trk K p τ ρ → Except Err (Trk K p τ ρ)
  | left, s => do
    let inside ← M.isInside (proj h s.part.x) s.cell
    if inside then .ok s
    else match left with
      | 0 => .error (v.err .tooMany)
      | left + 1 => do
        let (s', brk) ← crossOnce h M v bc s
        if brk then .ok s' else track h M v bc left s'

/-- The loop variables at the start (Particle_Module.py:1613-1625). -/
def startTrk (time dt : K) (st : τ) (dxS : Vec K p) (q : Part K p ρ) : Trk K p τ ρ :=
  ⟨st, q, q.cell, noFacet, 0, time - dt, dt, dxS, []⟩

/-- Acceleration (Particle_Module.py:1577-1580); `none`: no field is applied. -/
def accelerate (qmdt : K) (E : Option (Vec K p)) (q : Part K p ρ) : Part K p ρ :=
  match E with
  | none => q
  | some e => { q with u := q.u + qmdt • e }

/-- Motion (Particle_Module.py:1591-1598; neutral: 1986-1993). -/
def moveBy (dt : K) (q : Part K p ρ) : Part K p ρ :=
  { q with x0 := q.x, x := q.x + dt • q.u }

/-- One particle of a charged species: accelerate, move unless `accel_only`, track,
store the number of crossings (Particle_Module.py:1574-1799).  The result has the
form required by `TrajSp.adv`; the state is the user state and `self.dx`. -/
def moveCharged (h : g ≤ p) (M : Mesh K g) (v : Variant)
    (bc : Int → τ → BCall K g p ρ → Except Err (τ × Part K p ρ)) (maxCross : Nat)
    (time dt qmdt : K) (accelOnly : Bool) (E : Part K p ρ → Option (Vec K p))
    (st : τ × Vec K p) (q : Part K p ρ) :
    Except Err ((τ × Vec K p) × Part K p ρ × List (Part K p ρ × K)) := do
  let q1 := accelerate qmdt (E q) q
  let q2 := if accelOnly then q1 else moveBy dt q1
  let s ← track h M v bc maxCross (startTrk time dt st.1 st.2 q2)
  return ((s.st, s.dxS), { s.part with crossings := s.count }, s.events)

/-- One particle of a neutral species (Particle_Module.py:1980-2092). -/
def moveNeutral (h : g ≤ p) (M : Mesh K g) (v : Variant)
    (bc : Int → τ → BCall K g p ρ → Except Err (τ × Part K p ρ)) (maxCross : Nat)
    (time dt : K) (st : τ × Vec K p) (q : Part K p ρ) :
    Except Err ((τ × Vec K p) × Part K p ρ × List (Part K p ρ × K)) := do
  let s ← track h M v bc maxCross (startTrk time dt st.1 st.2 (moveBy dt q))
  return ((s.st, s.dxS), { s.part with crossings := s.count }, s.events)

/-- `advance_charged_species_in_E_field`, with fields such that a crossing can be
recorded. -/
def Variant.charged : Variant := ⟨true, false, .ok ()⟩

/-- `advance_neutral_species`. -/
def Variant.neutral : Variant := ⟨false, true, .ok ()⟩

/-- `move_particles_in_electrostatic_field`: the call at line 1305 passes keyword
arguments that `record_trajectory_datum` (2430) does not accept. -/
def Variant.oldCharged : Variant := ⟨true, false, .error .type⟩

end
end Dt
