import Verif.Model.Mover
import Verif.Model.Track

/-!
# Model of the fields applied to a charged species

The part of `advance_charged_species_in_E_field` (Particle_Module.py:1493-1521) and
`move_particles_in_electrostatic_field` (1093-1121) that prepares the electric field for a segment,
with the scratch arrays it uses (538-547), `Field_C.interpolate_field_to_points`
(Dolfin_Module.py:1104-1153), `Field_C.interpolate_random_field_to_points` (1157-1201), and the
field values stored when a trajectory particle crosses a marked facet (Particle_Module.py:1750-1761).

Simplifications
* A field is a partial function of the particle record: `self.function(p)` evaluates it at the
  position in the record, and raises if the position is not in the mesh.
* The random-number generator is a state `γ` with a function `normal`.
* `norm(v) != 0` is `v ≠ 0`: no underflow.
* `field_at_points[ip] = fieldValue` (Dolfin_Module.py:1198) stores the vector.
* A structured array with `d` components is a list of vectors.
-/

namespace Dt
namespace EField
variable {K : Type} [Field K] [DecidableEq K] {d : Nat} {α γ : Type}

/-- `self.negE`, `self.Eext`, `self.zeroE` (Particle_Module.py:538-547). -/
structure Scratch (K : Type) (d : Nat) where
  negE : List (Vec K d)
  ext : List (Vec K d)
  zero : List (Vec K d)

/-- The arrays after construction. -/
def Scratch.new (segLength : Nat) : Scratch K d :=
  let z : List (Vec K d) := List.replicate segLength 0
  ⟨z, z, z⟩

/-- A switch `ctrl.apply_...`: None, or a dictionary by species name. -/
abbrev Switch := Option (String → Option Bool)

/-- `ctrl.apply_... is None or ctrl.apply_...[sn] is True`; a missing name is a KeyError. -/
def Switch.isOn (sw : Switch) (sn : String) : Except Err Bool :=
  match sw with
  | none => .ok true
  | some f =>
    match f sn with
    | some b => .ok b
    | none => .error .key

/-- `interpolate_field_to_points(points, field_at_points)` (Dolfin_Module.py:1104-1153), from
point number `ip` on. -/
def interpolate (F : α → Except Err (Vec K d)) :
    List α → Nat → List (Vec K d) → Except Err (List (Vec K d))
  | [], _, arr => .ok arr
  | p :: ps, ip, arr => do
    let v ← F p
    let arr' ← pySet arr ip v
    interpolate F ps (ip + 1) arr'

/-- The value stored for one point by `interpolate_random_field_to_points`. -/
def randomized (normal : γ → K × γ) (v : Vec K d) (g : γ) : Vec K d × γ :=
  if v ≠ 0 then ((normal g).1 • v, (normal g).2) else (v, g)

/-- `interpolate_random_field_to_points(points, field_at_points)` (Dolfin_Module.py:1157-1201). -/
def interpolateRandom (normal : γ → K × γ) (F : α → Except Err (Vec K d)) :
    List α → Nat → List (Vec K d) → γ → Except Err (List (Vec K d) × γ)
  | [], _, arr, g => .ok (arr, g)
  | p :: ps, ip, arr, g => do
    let v ← F p
    let arr' ← pySet arr ip (randomized normal v g).1
    interpolateRandom normal F ps (ip + 1) arr' (randomized normal v g).2

/-- `arr[0:n] = f(arr[0:n], other[0:n])` elementwise; both slices have the same length. -/
def combine (f : Vec K d → Vec K d → Vec K d) (n : Nat) (arr other : List (Vec K d)) :
    List (Vec K d) :=
  List.zipWith f (arr.take n) (other.take n) ++ arr.drop n

/-- The solved part (Particle_Module.py:1493-1511) for the first `n` slots of `psegIn`: the
scratch arrays, and whether `Eseg` is `negE[0:npSeg]` (it is None otherwise). -/
def solvedPart (sw : Switch) (sn : String) (neg : Option (α → Except Err (Vec K d)))
    (pseg : List α) (n : Nat) (scr : Scratch K d) : Except Err (Scratch K d × Bool) :=
  match neg with
  | some F => do
    let on ← sw.isOn sn
    if on then do
      let negE ← interpolate F (pseg.take n) 0 scr.negE
      return ({ scr with negE := combine (fun v _ => -v) n negE negE }, true)
    else return (scr, false)
  | none => .ok ({ scr with negE := combine (fun _ z => z) n scr.negE scr.zero }, true)

/-- The external part (Particle_Module.py:1512-1521): the scratch arrays, the generator, and
whether `Eext_seg` has been assigned.  The call at 1515 passes the whole segment `psegIn`, not
`psegIn[0:npSeg]`.  `Eseg` None has no `dtype` (AttributeError). -/
def externalPart (sw : Switch) (sn : String) (normal : γ → K × γ)
    (ext : Option (α → Except Err (Vec K d))) (pseg : List α) (n : Nat) (scr : Scratch K d)
    (hasE : Bool) (g : γ) : Except Err (Scratch K d × γ × Bool) :=
  match ext with
  | some F => do
    let on ← sw.isOn sn
    if on then do
      let (e, g') ← interpolateRandom normal F pseg 0 scr.ext g
      if hasE then
        return ({ scr with ext := e, negE := combine (· + ·) n scr.negE e }, g', true)
      else .error .attribute
    else return (scr, g, false)
  | none => .ok (scr, g, false)

/-- What the particle loop finds in `Eseg`, `Eext_seg` for one particle: `kick` is `Eseg[ipIn]`
(`none` if `Eseg` is None), `cross` the values of the two field columns stored at a marked facet
(Particle_Module.py:1750-1761). -/
structure FieldAt (K : Type) (d : Nat) where
  kick : Option (Vec K d)
  cross : Except Err (Vec K d × Vec K d)

/-- The values for the crossing record: subscripting None is a TypeError, an unassigned
`Eext_seg` an UnboundLocalError (a NameError). -/
def crossFields (kick : Option (Vec K d)) (extGiven : Bool) (extAt : Option (Vec K d)) :
    Except Err (Vec K d × Vec K d) :=
  match kick with
  | none => .error .type
  | some e =>
    if extGiven then
      match extAt with
      | none => .error .name
      | some x => .ok (e, x)
    else .ok (e, 0)

/-- The fields for a segment. -/
structure Fields (K : Type) (d : Nat) (α : Type) where
  neg : Option (α → Except Err (Vec K d))
  ext : Option (α → Except Err (Vec K d))
  solvedSw : Switch
  extSw : Switch
  species : String

/-- The entries of a slice `arr[0:n]`, or None for every particle. -/
def entries (present : Bool) (n : Nat) (arr : List (Vec K d)) : List (Option (Vec K d)) :=
  if present then (arr.take n).map some else List.replicate n none

/-- The preparation for a segment `psegIn` of which `n` slots are in use
(Particle_Module.py:1493-1521), and what the particle loop will find: entry `ipIn` of the list
belongs to particle `ipIn`. -/
def prepare (fl : Fields K d α) (normal : γ → K × γ) (st : Scratch K d × γ) (pseg : List α)
    (n : Nat) : Except Err ((Scratch K d × γ) × List (FieldAt K d)) := do
  let (scr1, hasE) ← solvedPart fl.solvedSw fl.species fl.neg pseg n st.1
  let (scr2, g', hasX) ← externalPart fl.extSw fl.species normal fl.ext pseg n scr1 hasE st.2
  return ((scr2, g'), List.zipWith (fun e x => ⟨e, crossFields e fl.ext.isSome x⟩)
    (entries hasE n scr2.negE) (entries hasX n scr2.ext))

/-- A field at a point, zero if there is no field. -/
def fieldOrZero (F : Option (α → Except Err (Vec K d))) (p : α) : Except Err (Vec K d) :=
  match F with
  | none => .ok 0
  | some F => F p

/-- What `record_trajectory_data` stores in the two field columns for a particle
(Particle_Module.py:2733-2755). -/
def scheduledFields (fl : Fields K d α) (p : α) : Except Err (Vec K d × Vec K d) := do
  let neg ← fieldOrZero fl.neg p
  let ext ← fieldOrZero fl.ext p
  return (-neg, ext)

end EField

namespace Mover
variable {σ ρ φ α : Type}

/-- The particle loop with fields prepared for the segment: particle `ipIn` uses entry `ipIn`
(Particle_Module.py:1554-1580). -/
def moveItemsE (adv : φ → Adv σ α) (vin : View) (fs : List φ) :
    Nat → Nat → Pass σ α → Except Err (Pass σ α)
  | 0, _, ps => .ok ps
  | k + 1, ip, ps => do
    let ps' ← moveOne (fun st iIn iOut ch p => do
      let f ← pyGet fs ip
      adv f st iIn iOut ch p) vin ip ps
    moveItemsE adv vin fs k (ip + 1) ps'

/-- The segment loop with the preparation at the start of each segment
(Particle_Module.py:1484-1836). -/
def moveSegsE (prep : ρ → List α → Nat → Except Err (ρ × List φ)) (adv : φ → Adv σ α) :
    Nat → Int → Option View → ρ → Pass σ α → Except Err (ρ × Pass σ α)
  | _, _, none, r, ps => .ok (r, ps)
  | 0, _, some _, _, _ => .error .fuel
  | fuel + 1, n, some vin, r, ps => do
    let pseg ← pyGet (ps.s.arr vin.arr).segs vin.seg
    let (r', fs) ← prep r pseg n.toNat
    let ps1 ← moveItemsE adv vin fs n.toNat 0 ps
    let (s', (n', v')) := ps1.s.getNextSegment .In
    moveSegsE prep adv fuel n' v' r' { ps1 with s := s' }

/-- `meshPass` with the preparation of fields (Particle_Module.py:1475-1847). -/
def meshPassE (prep : ρ → List α → Nat → Except Err (ρ × List φ)) (adv : φ → Adv σ α) (s : SAP α)
    (r : ρ) (st : σ) : Except Err (SAP α × ρ × σ) :=
  match s.initInoutLoop with
  | (s1, (n, some (vin, vout))) => do
    let (r', ps) ← moveSegsE prep adv (s.outA.nseg + 1) n (some vin) r
      { s := s1, vout := vout, ipOut := 0, count := 0, indexChange := false, st := st }
    let c := if ps.ipOut ≠ ps.s.sl then ps.count + ps.ipOut else ps.count
    return (ps.s.setNumberOfItems .Out c, r', ps.st)
  | (s1, (_, none)) => .ok (s1.setNumberOfItems .Out 0, r, st)

end Mover
end Dt
