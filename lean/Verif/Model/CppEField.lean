import Verif.Model.EField
import Verif.Model.CppPass

/-!
# Model of the fields applied to a charged species by the compiled movers

The switches (cpp/advance_charged_species_in_E_field_cartesian_x.cpp:98-128, the same in the xy and
spherical_r files), the preparation of the electric field for a segment (..._cartesian_x.cpp:179-238,
..._xy.cpp:146-206, ..._spherical_r.cpp:183-244), `interpolate_field_to_points`
(cpp/dolfin_functions.cpp:563-602), the field columns stored when a trajectory particle crosses a
marked facet (..._xy.cpp:344-362) and the caller
`Particle_C.advance_charged_particles_in_E_field` (Particle_Module.py:1391-1412).

The scratch arrays are those of `Verif.Model.EField`; for the compiled movers they are plain arrays
(Particle_Module.py:538-542).

Simplifications
* A field is a partial function of the particle record: the compiled code takes the degrees of
  freedom of the cell `cell_index`; an index that is not a cell's is undefined behaviour, here a
  failure of the function.
* Conversions between `double` and the components of a record are not modelled.
-/

namespace Dt
namespace CppEField
open EField
variable {K : Type} [Field K] {d : Nat} {α : Type}

/-- `flag == true || map[species_name] == true` (..._cartesian_x.cpp:98-128, 190, 219):
`std::map::operator[]` creates the entry `false` for a missing name. -/
def isOn (sw : Switch) (sn : String) : Bool :=
  match sw with
  | none => true
  | some f => (f sn).getD false

/-- What `EsegPtr` points to. -/
inductive Eseg
  | null
  | neg
  | zero
  deriving DecidableEq

/-- `interpolate_field_to_points` (cpp/dolfin_functions.cpp:563-602), from point number `ip` on;
the array is accessed without bounds check. -/
def interpolate (F : α → Except Err (Vec K d)) :
    List α → Nat → List (Vec K d) → Except Err (List (Vec K d))
  | [], _, arr => .ok arr
  | p :: ps, ip, arr => do
    let v ← F p
    let arr' ← cSet arr ip v
    interpolate F ps (ip + 1) arr'

/-- The solved part (..._cartesian_x.cpp:187-214).  If the field is given but not applied,
`EsegPtr` keeps its value. -/
def solvedPart (fl : Fields K d α) (pseg : List α) (n : Nat) (st : Scratch K d × Eseg) :
    Except Err (Scratch K d × Eseg) :=
  match fl.neg with
  | some F =>
    if isOn fl.solvedSw fl.species then do
      let negE ← interpolate F (pseg.take n) 0 st.1.negE
      return ({ st.1 with negE := combine (fun v _ => -v) n negE negE }, .neg)
    else .ok st
  | none => .ok (st.1, .zero)

/-- The external part (..._cartesian_x.cpp:216-238): the interpolation is not written, so what
`Eext` holds is added to the array `EsegPtr` points to; a null pointer is dereferenced. -/
def externalPart (fl : Fields K d α) (n : Nat) (st : Scratch K d × Eseg) :
    Except Err (Scratch K d × Eseg) :=
  match fl.ext with
  | some _ =>
    if isOn fl.extSw fl.species then
      match st.2 with
      | .null => .error .ub
      | .neg => .ok ({ st.1 with negE := combine (· + ·) n st.1.negE st.1.ext }, .neg)
      | .zero => .ok ({ st.1 with zero := combine (· + ·) n st.1.zero st.1.ext }, .zero)
    else .ok st
  | none => .ok st

/-- What the particle loop finds for one particle: `kick` is row `ipIn` of `*EsegPtr` (`none` for a
null pointer), `ext` row `ipIn` of `Eext`. -/
structure FieldAt (K : Type) (d : Nat) where
  kick : Option (Vec K d)
  ext : Vec K d

/-- `arr(0, 0) = value`: only the first component is copied (..._xy.cpp:351-360). -/
def putFirst (arr value : Vec K d) : Vec K d := fun j => if j.val = 0 then value j else arr j

/-- The arrays `E1_comps`, `Eext1_comps` passed to `record_trajectory_datum` at a marked facet
(..._xy.cpp:348-362), given what they held; a null pointer is dereferenced. -/
def FieldAt.cross (f : FieldAt K d) (held : Vec K d × Vec K d) : Except Err (Vec K d × Vec K d) :=
  match f.kick with
  | none => .error .ub
  | some e => .ok (putFirst held.1 e, putFirst held.2 f.ext)

/-- The rows `0..n-1` of `*EsegPtr`. -/
def rows (n : Nat) (st : Scratch K d × Eseg) : List (Option (Vec K d)) :=
  match st.2 with
  | .null => List.replicate n none
  | .neg => (st.1.negE.take n).map some
  | .zero => (st.1.zero.take n).map some

/-- The preparation for a segment of which `n` slots are in use. -/
def prepare (fl : Fields K d α) (st : Scratch K d × Eseg) (pseg : List α) (n : Nat) :
    Except Err ((Scratch K d × Eseg) × List (FieldAt K d)) := do
  let st1 ← solvedPart fl pseg n st
  let st2 ← externalPart fl n st1
  return (st2, List.zipWith FieldAt.mk (rows n st2) (st2.1.ext.take n))

end CppEField

namespace CppMover
variable {σ ρ φ α : Type}

/-- The particle loop with fields prepared for the segment (..._cartesian_x.cpp:240-520). -/
def moveItemsE (adv : φ → Adv σ α) (vin : View) (fs : List φ) :
    Nat → Nat → CPass σ α → Except Err (CPass σ α)
  | 0, _, ps => .ok ps
  | k + 1, ip, ps => do
    let ps' ← moveOne (fun _ => false) (fun st iIn iOut ch p => do
      let f ← cGet fs ip
      adv f st iIn iOut ch p) vin ip ps
    moveItemsE adv vin fs k (ip + 1) ps'

/-- The segment loop with the preparation at the start of each segment
(..._cartesian_x.cpp:180-548). -/
def moveSegsE (prep : ρ → List α → Nat → Except Err (ρ × List φ)) (adv : φ → Adv σ α) :
    Nat → Int → Option View → ρ → CPass σ α → Except Err (ρ × CPass σ α)
  | _, _, none, r, ps => .ok (r, ps)
  | 0, _, some _, _, _ => .error .fuel
  | fuel + 1, n, some vin, r, ps => do
    let pseg ← cGet (ps.s.arr vin.arr).segs vin.seg
    let (r', fs) ← prep r pseg n.toNat
    let ps1 ← moveItemsE adv vin fs n.toNat 0 ps
    let (s', (n', v')) := ps1.s.getNextSegment .In
    moveSegsE prep adv fuel n' v' r' { ps1 with s := s' }

/-- `cppPass` with the preparation of fields. -/
def cppPassE (prep : ρ → List α → Nat → Except Err (ρ × List φ)) (adv : φ → Adv σ α) (s : CSAP α)
    (r : ρ) (st : σ) : Except Err (CSAP α × ρ × σ) :=
  match s.initInoutLoop with
  | (s1, (n, some (vin, vout))) => do
    let (r', ps) ← moveSegsE prep adv ((s.arr s.outSel).nseg + 1) n (some vin) r
      { s := s1, vout := vout, ipOut := 0, count := 0, indexChange := false, st := st }
    let c := if ps.ipOut ≠ ps.s.sl then ps.count + ps.ipOut else ps.count
    return (ps.s.setNumberOfItems .Out (c : Int), r', ps.st)
  | (_, (_, none)) => .error .type

/-- `advance_charged_species_in_E_field` of the compiled code: the arrays belong to the particle
object and `EsegPtr` is null at the start (..._cartesian_x.cpp:179). -/
def cppChargedPass {K : Type} [Field K] {d : Nat} (fl : EField.Fields K d α)
    (adv : CppEField.FieldAt K d → Adv σ α) (s : CSAP α) (scr : EField.Scratch K d) (st : σ) :
    Except Err (CSAP α × EField.Scratch K d × σ) := do
  let (s', r, st') ← cppPassE (CppEField.prepare fl) adv s (scr, .null) st
  return (s', r.1, st')

/-- One species in `advance_charged_particles_in_E_field` with compiled integrators
(Particle_Module.py:1401-1407): `neg_E_field.function` of None raises AttributeError; the external
field is a `Field_C`, which pybind11 does not convert to `dolfin::Function*` (TypeError);
`accel_only` is passed on and not looked at. -/
def cppAdvanceCharged {K : Type} [Field K] {d : Nat} (fl : EField.Fields K d α) (_accelOnly : Bool)
    (adv : CppEField.FieldAt K d → Adv σ α) (s : CSAP α) (scr : EField.Scratch K d) (st : σ) :
    Except Err (CSAP α × EField.Scratch K d × σ) :=
  if s.getNumberOfItems = 0 then .ok (s, scr, st)
  else if fl.neg.isNone then .error .attribute
  else if fl.ext.isSome then .error .type
  else cppChargedPass fl adv s scr st

end CppMover
end Dt
