import Verif.Model.Simulation

/-!
# Model of the motion of one particle in machine arithmetic

The functions of `Model/Geometry` and `Model/Track` once more, with a rounding after every operation:
`find_facet` (Dolfin_Module.py:626-891), and one particle of `advance_charged_species_in_E_field`
(Particle_Module.py:1574-1799) and of `advance_neutral_species` (1980-2092).

Simplifications
* Machine numbers are the values of a rounding function `fl`; overflow, infinities and NaN are not modelled
  (`fl` is a total function).
* `np_m.dot` is any function (the order of summation and fused operations are left open).
* `cell.contains(p)` of Dolfin is any test.
-/

namespace Dt

/-- An arithmetic: rounding to machine numbers, scalar products, and the test whether a point is in a cell. -/
structure Arith (K : Type) (g : Nat) where
  fl : K → K
  dot : Vec K g → Vec K g → K
  contains : Cell K g → Vec K g → Bool

namespace Rounded

section
variable {K : Type} [Field K] [LinearOrder K] {g p : Nat} {τ ρ φ : Type}

/-- The test of one facet (e.g. Dolfin_Module.py:696-713). -/
def testFacet (A : Arith K g) (c : Cell K g) (x0 dx : Vec K g) (k w : Int) (acc : Int × K) :
    Except Err (Int × K) := do
  let n ← pyGet c.normals k
  let nDotDx := A.dot n dx
  if nDotDx > 0 then do
    let v ← pyGet c.verts w
    let d0 := A.dot n (fun i => A.fl (v i - x0 i))
    let d := if d0 < 0 then -d0 else d0
    if d < A.fl (acc.2 * nDotDx) then return (k, A.fl (d / nDotDx)) else return acc
  else return acc

/-- All the tests one after the other (3D and 2D). -/
def testAll (A : Arith K g) (c : Cell K g) (x0 dx : Vec K g) :
    List (Int × Int) → Int × K → Except Err (Int × K)
  | [], acc => .ok acc
  | (k, w) :: rest, acc => do
    let acc' ← testFacet A c x0 dx k w acc
    testAll A c x0 dx rest acc'

/-- `find_facet` in 3D and 2D (Dolfin_Module.py:661-848). -/
def findFacetMulti (A : Arith K g) (c : Cell K g) (x0 dx : Vec K g) :
    Except Err (Int × K × Option (Vec K g)) :=
  if A.dot dx dx = 0 then .ok (noFacet, 1, none)
  else do
    let (facet, f) ← testAll A c x0 dx (facetTests g) (noFacet, 1)
    if f > 1 ∨ f < 0 then .error .exit
    else do
      let n ← pyGet c.normals facet
      return (facet, f, some n)

/-- `find_facet` in 1D (Dolfin_Module.py:661-672, 850-889). -/
def findFacet1 (A : Arith K g) (c : Cell K g) (x0 dx : Vec K g) :
    Except Err (Int × K × Option (Vec K g)) :=
  if A.dot dx dx = 0 then .ok (noFacet, 1, none)
  else do
    let (facet, f) ← testFacet A c x0 dx 0 0 (noFacet, 1)
    if facet = 0 then do
      let n ← pyGet c.normals facet
      return (facet, f, some n)
    else do
      let (facet, f) ← testFacet A c x0 dx 1 1 (noFacet, 1)
      if facet = 1 then do
        let n ← pyGet c.normals facet
        return (facet, f, some n)
      else if f > 1 ∨ f < 0 then .error .exit
      else do
        let n ← pyGet c.normals facet
        return (facet, f, some n)

/-- `find_facet` (Dolfin_Module.py:626-891). -/
def findFacet (A : Arith K g) (M : Mesh K g) (x0 dx : Vec K g) (ci : Int) :
    Except Err (Int × K × Option (Vec K g)) := do
  if A.dot dx dx = 0 then .ok (noFacet, 1, none)
  else do
    let c ← M.lookup ci
    match g with
    | 3 => findFacetMulti A c x0 dx
    | 2 => findFacetMulti A c x0 dx
    | _ => findFacet1 A c x0 dx

/-- `is_inside_cell` (Dolfin_Module.py:560-597). -/
def isInside (A : Arith K g) (M : Mesh K g) (x : Vec K g) (ci : Int) : Except Err Bool := do
  let c ← M.lookup ci
  return A.contains c x

/-- The body of the `while` loop after the count has been checked
(Particle_Module.py:1636-1793). -/
def crossOnce (A : Arith K g) (h : g ≤ p) (M : Mesh K g) (v : Variant)
    (bc : Int → τ → BCall K g p ρ → Except Err (τ × Part K p ρ)) (s : Trk K p τ ρ) :
    Except Err (Trk K p τ ρ × Bool) := do
  let dx : Vec K p := fun i => A.fl (s.part.x i - s.part.x0 i)
  let dxS := if v.sharesDx then dx else s.dxS
  let (cFacet, f, n) ← findFacet A M (proj h s.part.x0) (proj h dx) s.cell
  if cFacet = noFacet then .error (v.err .noFacet)
  else do
    let c ← M.lookup s.cell
    let mFacet ← pyGet c.facets cFacet
    if mFacet = s.last then .error (v.err .sameFacet)
    else do
      let s1 := { s with
        count := s.count + 1
        tStart := A.fl (s.tStart + A.fl (f * s.rem))
        rem := A.fl (s.rem - A.fl (f * s.rem))
        part := { s.part with x0 := fun i => A.fl (s.part.x0 i + A.fl (f * dx i)) }
        last := mFacet
        dxS := dxS }
      let s2 ← if M.marker mFacet ≠ 0 then atMarked v bc (M.marker mFacet) f n mFacet s1
        else .ok s1
      nextCell c cFacet s2

/-- The tracking loop (Particle_Module.py:1627-1796). -/
def track (A : Arith K g) (h : g ≤ p) (M : Mesh K g) (v : Variant)
    (bc : Int → τ → BCall K g p ρ → Except Err (τ × Part K p ρ)) :
    Nat → Trk K p τ ρ → Except Err (Trk K p τ ρ)
  | left, s => do
    let inside ← isInside A M (proj h s.part.x) s.cell
    if inside then .ok s
    else match left with
      | 0 => .error (v.err .tooMany)
      | left + 1 => do
        let (s', brk) ← crossOnce A h M v bc s
        if brk then .ok s' else track A h M v bc left s'

/-- The loop variables at the start (Particle_Module.py:1613-1625). -/
def startTrk (A : Arith K g) (time dt : K) (st : τ) (dxS : Vec K p) (q : Part K p ρ) : Trk K p τ ρ :=
  ⟨st, q, q.cell, noFacet, 0, A.fl (time - dt), dt, dxS, []⟩

/-- Acceleration (Particle_Module.py:1577-1580). -/
def accelerate (A : Arith K g) (qmdt : K) (E : Option (Vec K p)) (q : Part K p ρ) : Part K p ρ :=
  match E with
  | none => q
  | some e => { q with u := fun i => A.fl (q.u i + A.fl (qmdt * e i)) }

/-- Motion (Particle_Module.py:1591-1598; neutral: 1986-1993). -/
def moveBy (A : Arith K g) (dt : K) (q : Part K p ρ) : Part K p ρ :=
  { q with x0 := q.x, x := fun i => A.fl (q.x i + A.fl (q.u i * dt)) }

/-- One particle of a charged species (Particle_Module.py:1574-1799). -/
def moveCharged (A : Arith K g) (h : g ≤ p) (M : Mesh K g) (v : Variant)
    (bc : Int → τ → BCall K g p ρ → Except Err (τ × Part K p ρ)) (maxCross : Nat)
    (time dt qmdt : K) (accelOnly : Bool) (E : Part K p ρ → Option (Vec K p))
    (st : τ × Vec K p) (q : Part K p ρ) :
    Except Err ((τ × Vec K p) × Part K p ρ × List (Part K p ρ × K)) := do
  let q1 := accelerate A qmdt (E q) q
  let q2 := if accelOnly then q1 else moveBy A dt q1
  let s ← track A h M v bc maxCross (startTrk A time dt st.1 st.2 q2)
  return ((s.st, s.dxS), { s.part with crossings := s.count }, s.events)

/-- One particle of a neutral species (Particle_Module.py:1980-2092). -/
def moveNeutral (A : Arith K g) (h : g ≤ p) (M : Mesh K g) (v : Variant)
    (bc : Int → τ → BCall K g p ρ → Except Err (τ × Part K p ρ)) (maxCross : Nat)
    (time dt : K) (st : τ × Vec K p) (q : Part K p ρ) :
    Except Err ((τ × Vec K p) × Part K p ρ × List (Part K p ρ × K)) := do
  let s ← track A h M v bc maxCross (startTrk A time dt st.1 st.2 (moveBy A dt q))
  return ((s.st, s.dxS), { s.part with crossings := s.count }, s.events)

/-- `advance_charged_species_in_E_field` for the species `sn` (Particle_Module.py:1448-1470, 1554-1829). -/
def pyMove (A : Arith K g) (h : g ≤ p) (M : Mesh K g)
    (bc : String → Int → τ → BCall K g p ρ → Except Err (τ × Part K p ρ)) (maxCross : Nat)
    (dt : K) (qom : String → K) (E : String → φ → Part K p ρ → Option (Vec K p)) :
    String → φ → Int → K → Adv (τ × Vec K p) (Part K p ρ) := fun sn f _ time =>
  plainAdv (moveCharged A h M .charged (bc sn) maxCross time dt (A.fl (qom sn * dt)) false (E sn f))

end
end Rounded
end Dt
