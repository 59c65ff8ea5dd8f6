import Verif.Model.CppTrack

/-!
# The compiled movers in machine arithmetic

`find_facet` (cpp/dolfin_functions.cpp:75-466) and one particle of the compiled movers
(cpp/advance_charged_species_in_E_field_cartesian_xy.cpp:232-437 and its copies), as in
`Verif.Model.CppGeometry` and `Verif.Model.CppTrack`, with a rounding after every operation.

Simplifications
* Rounding is any function `fl`; there is no overflow and no NaN.
* `a + b*c` is any function `mulAdd`: the compiler may or may not fuse the two operations.
* Scalar products are any function `dot`: their terms may be summed in any order, fused or not.
* `is_inside_vertices` is any test `inside`.
* Changing the sign is exact.
-/

namespace Dt

/-- The arithmetic of the machine as used by compiled code. -/
structure CArith (K : Type) where
  fl : K → K
  mulAdd : K → K → K → K
  dot : (g : Nat) → Vec K g → Vec K g → K
  inside : Nat → List K → List Nat → List K → Except Err Bool

namespace CppRounded

section
variable {K : Type} [Field K] [LinearOrder K] {g p : Nat} {τ ρ : Type}

/-- The test of one facet (e.g. dolfin_functions.cpp:145-171). -/
def testFacet (A : CArith K) (g : Nat) (c : CppCell K) (x0 dx : Vec K g) (k w : Nat) (acc : Int × K) :
    Except Err (Int × K) := do
  let n ← loadVec c.normals (k * 3) g
  let nDotDx := A.dot g n dx
  if nDotDx > 0 then do
    let v ← loadVec c.coords (w * g) g
    let d0 := A.dot g n (fun i => A.fl (v i - x0 i))
    let d := if d0 < 0 then -d0 else d0
    if d < A.fl (acc.2 * nDotDx) then return ((k : Int), A.fl (d / nDotDx)) else return acc
  else return acc

/-- 3D (dolfin_functions.cpp:133-262). -/
def findFacet3 (A : CArith K) (c : CppCell K) (x0 dx : Vec K 3) : Except Err (Int × K × Option (Vec K 3)) := do
  let a ← testFacet A 3 c x0 dx 0 1 (noFacet, 1)
  let a ← testFacet A 3 c x0 dx 1 2 a
  let a ← testFacet A 3 c x0 dx 2 3 a
  let a ← testFacet A 3 c x0 dx 3 0 a
  if a.2 > 1 ∨ a.2 < 0 then .error .exit
  else do
    let n ← cppNormal 3 c a.1
    return (a.1, a.2, some n)

/-- 2D (dolfin_functions.cpp:263-374). -/
def findFacet2 (A : CArith K) (c : CppCell K) (x0 dx : Vec K 2) : Except Err (Int × K × Option (Vec K 2)) := do
  let a ← testFacet A 2 c x0 dx 0 1 (noFacet, 1)
  let a ← testFacet A 2 c x0 dx 1 2 a
  let a ← testFacet A 2 c x0 dx 2 0 a
  if a.2 > 1 ∨ a.2 < 0 then .error .exit
  else do
    let n ← cppNormal 2 c a.1
    return (a.1, a.2, some n)

/-- 1D (dolfin_functions.cpp:375-460). -/
def findFacet1 (A : CArith K) (c : CppCell K) (x0 dx : Vec K 1) : Except Err (Int × K × Option (Vec K 1)) := do
  let a ← testFacet A 1 c x0 dx 0 0 (noFacet, 1)
  if a.1 = 0 then do
    if 0 ≤ a.2 ∧ a.2 ≤ 1 then do
      let n ← cppNormal 1 c a.1
      return (a.1, a.2, some n)
    else .error .abort
  else do
    let a ← testFacet A 1 c x0 dx 1 1 (noFacet, 1)
    if a.1 = 1 then
      if 0 ≤ a.2 ∧ a.2 ≤ 1 then do
        let n ← cppNormal 1 c a.1
        return (a.1, a.2, some n)
      else .error .abort
    else .error .exit

/-- `find_facet` (dolfin_functions.cpp:75-466). -/
def findFacet (A : CArith K) : (g : Nat) → CppCell K → Vec K g → Vec K g → Except Err (Int × K × Option (Vec K g))
  | 3, c, x0, dx => if A.dot 3 dx dx = 0 then .ok (noFacet, 1, none) else findFacet3 A c x0 dx
  | 2, c, x0, dx => if A.dot 2 dx dx = 0 then .ok (noFacet, 1, none) else findFacet2 A c x0 dx
  | 1, c, x0, dx => if A.dot 1 dx dx = 0 then .ok (noFacet, 1, none) else findFacet1 A c x0 dx
  | _, _, _, _ => .ok (noFacet, 1, none)

/-- The loop condition (advance_charged_species_in_E_field_cartesian_xy.cpp:270-280, 428-433). -/
def isInside (A : CArith K) (g : Nat) (M : CppMesh K) (x : Vec K p) (ci : Int) : Except Err Bool := do
  let c ← M.lookup ci
  A.inside g M.coords c.vertices (List.ofFn x)

/-- The body of the loop after the count has been checked
(advance_charged_species_in_E_field_cartesian_xy.cpp:294-426), and the scratch array. -/
def crossOnce (A : CArith K) (h : g ≤ p) (L : Layout K p) (M : CppMesh K)
    (bc : Int → τ → BCall K g p ρ → Except Err (τ × Part K p ρ))
    (sc : Scratch K) (s : Trk K p τ ρ) : Except Err (Trk K p τ ρ × Bool × Scratch K) := do
  let c ← M.lookup s.cell
  let sc' := L.fill sc s.part.x s.part.x0
  let dx : Vec K p := fun i => A.fl (sc' i - sc' (L.off + i))
  let (cFacet, f, n) ← findFacet A g c.geo (sc'.from p g) (proj h dx)
  if cFacet = noFacet then .error .exit
  else do
    let mFacet ← cGet c.facets cFacet
    if mFacet = s.last then .error .exit
    else do
      let s1 := { s with
        count := s.count + 1
        tStart := A.mulAdd s.tStart f s.rem
        rem := A.fl (A.fl (1 - f) * s.rem)
        part := { s.part with x0 := fun i => A.mulAdd (s.part.x0 i) f (dx i) }
        last := mFacet
        dxS := dx }
      let s2 ← if M.marker mFacet ≠ 0 then cppAtMarked bc (M.marker mFacet) f n mFacet s1
        else .ok s1
      let (s3, brk) ← cppNextCell c cFacet s2
      return (s3, brk, sc')

/-- The loop (advance_charged_species_in_E_field_cartesian_xy.cpp:280-434). -/
def track (A : CArith K) (h : g ≤ p) (L : Layout K p) (M : CppMesh K)
    (bc : Int → τ → BCall K g p ρ → Except Err (τ × Part K p ρ)) :
    Nat → Scratch K → Trk K p τ ρ → Except Err (Trk K p τ ρ × Scratch K)
  | left, sc, s => do
    let inside ← isInside A g M s.part.x s.cell
    if inside then .ok (s, sc)
    else match left with
      | 0 => .error .exit
      | left + 1 => do
        let (s', brk, sc') ← crossOnce A h L M bc sc s
        if brk then .ok (s', sc') else track A h L M bc left sc' s'

/-- The loop variables at the start (advance_charged_species_in_E_field_cartesian_xy.cpp:255-264). -/
def startTrk (A : CArith K) (time dt : K) (st : τ) (dxS : Vec K p) (q : Part K p ρ) : Trk K p τ ρ :=
  ⟨st, q, q.cell, noFacet, 0, A.fl (time - dt), dt, dxS, []⟩

/-- Acceleration, if there is a field (advance_charged_species_in_E_field_cartesian_xy.cpp:237-243). -/
def accelerate (A : CArith K) (qmdt : K) (E : Option (Vec K p)) (q : Part K p ρ) : Part K p ρ :=
  match E with
  | none => q
  | some e => { q with u := fun i => A.mulAdd (q.u i) qmdt (e i) }

/-- Motion (advance_charged_species_in_E_field_cartesian_xy.cpp:246-253). -/
def moveBy (A : CArith K) (dt : K) (q : Part K p ρ) : Part K p ρ :=
  { q with x0 := q.x, x := fun i => A.mulAdd (q.x i) (q.u i) dt }

/-- One particle (advance_charged_species_in_E_field_cartesian_xy.cpp:232-437). -/
def move (A : CArith K) (h : g ≤ p) (L : Layout K p) (M : CppMesh K)
    (bc : Int → τ → BCall K g p ρ → Except Err (τ × Part K p ρ)) (maxCross : Nat)
    (time dt qmdt : K) (E : Part K p ρ → Option (Vec K p))
    (st : (τ × Vec K p) × Scratch K) (q : Part K p ρ) :
    Except Err (((τ × Vec K p) × Scratch K) × Part K p ρ × List (Part K p ρ × K)) := do
  let (s, sc') ← track A h L M bc maxCross st.2
    (startTrk A time dt st.1.1 st.1.2 (moveBy A dt (accelerate A qmdt (E q) q)))
  return (((s.st, s.dxS), sc'), { s.part with crossings := s.count }, s.events)

end
end CppRounded
end Dt
