import Mathlib.Algebra.Field.Basic
import Mathlib.Algebra.Order.Field.Basic
import Verif.Model.OutLoop
import Verif.Model.Recorded

/-!
# Model of the species tables, species sums and histories of `Particle_C`

`Particle_C.__init__` (Particle_Module.py:154-448), `get_species_number` (722-747),
`get_species_particle_count` (751-764), `get_total_particle_count` (767-781), `get_species_KE`
(785-812), `compute_mesh_cell_indices` (816-850), `record_history_data` (2821-2864) with
`ParticleHistory_C` (RecordedData_Module.py:110-206).

Numbers are elements of a field `K` (rounding of floats, and the 32-bit storage of histories, are
not modelled).  Printing is omitted.
-/

namespace Dt
namespace Species
variable {K : Type} [Field K]

/-- A dictionary with string keys: association list, the newest value of a key counts. -/
abbrev Dict (V : Type) := List (String × V)

/-- `d[k]`; a missing key is a KeyError. -/
def Dict.get {V : Type} (d : Dict V) (k : String) : Except Err V :=
  match List.lookup k d with
  | some v => .ok v
  | none => .error .key

/-- `d[k] = v`. -/
def Dict.put {V : Type} (d : Dict V) (k : String) (v : V) : Dict V := (k, v) :: d

/-- A species definition (`ParticleSpecies_C`, Particle_Module.py:74-114). -/
structure Def (K : Type) where
  name : String
  charge : K
  mass : K

/-- The tables filled by the constructor. -/
structure Registry (K : Type) where
  names : List String
  index : Dict Nat
  charged : List String
  neutral : List String
  charge : Dict K
  mass : Dict K
  qom : Dict K

/-- The numbering of the species (Particle_Module.py:221-226). -/
def numberSpecies : List String → Nat → Dict Nat → Dict Nat
  | [], _, d => d
  | sn :: rest, isp, d => numberSpecies rest (isp + 1) (d.put sn (isp + 1))

/-- The body of `for sp in particleSpecies` (Particle_Module.py:285-306). -/
def addSpecies [DecidableEq K] (r : Registry K) (sp : Def K) : Except Err (Registry K) :=
  if sp.mass = 0 then .error .zerodiv
  else .ok { r with
    charge := r.charge.put sp.name sp.charge
    neutral := if sp.charge = 0 then r.neutral ++ [sp.name] else r.neutral
    charged := if sp.charge = 0 then r.charged else r.charged ++ [sp.name]
    mass := r.mass.put sp.name sp.mass
    qom := r.qom.put sp.name (sp.charge / sp.mass) }

/-- The species part of `__init__` (Particle_Module.py:204-306). -/
def initSpecies [DecidableEq K] (defs : List (Def K)) : Except Err (Registry K) :=
  defs.foldlM addSpecies
    { names := defs.map Def.name
      index := numberSpecies (defs.map Def.name) 0 []
      charged := [], neutral := [], charge := [], mass := [], qom := [] }

/-! ### Sums over a species -/

variable {α : Type}

/-- `get_species_number` (Particle_Module.py:722-747). -/
def getSpeciesNumber (weight : α → K) (s : SAP α) : Except Err (SAP α × K) :=
  s.outLoop (SAP.readBody (fun acc ps => .ok (acc + (ps.map weight).sum))) 0

/-- `get_species_KE` (Particle_Module.py:785-812); `vel` lists the velocity components. -/
def getSpeciesKE (weight : α → K) (vel : List (α → K)) (mass : K) (s : SAP α) :
    Except Err (SAP α × K) := do
  let (s', ke) ← s.outLoop (SAP.readBody (fun acc ps => .ok
    (vel.foldl (fun acc u => acc + (ps.map (fun p => weight p * u p ^ 2)).sum) acc))) 0
  return (s', ke * ((1 / 2) * mass))

/-- `get_total_particle_count` (Particle_Module.py:767-781). -/
def getTotalCount (ss : List (SAP α)) : Int := ss.foldl (fun n s => n + s.getNumberOfItems) 0

/-! ### Cell indices -/

/-- The `for ip in range(npSeg)` loop of `compute_mesh_cell_indices`
(Particle_Module.py:829-841): `k` particles from `ip` on.  `locate` is `compute_cell_index`,
`inside` is `is_inside_cell` on the updated record, `setCell` stores `cell_index`. -/
def indexItems (locate : α → Int) (inside : α → Except Err Bool) (setCell : α → Int → α)
    (v : View) : Nat → Nat → SAP α → Except Err (SAP α)
  | 0, _, s => .ok s
  | k + 1, ip, s => do
    let p ← s.viewGet v ip
    let p' := setCell p (locate p)
    let s' ← s.viewSet v ip p'
    let ok ← inside p'
    if ok then indexItems locate inside setCell v k (ip + 1) s' else .error .runtime

/-- `compute_mesh_cell_indices` for one species (Particle_Module.py:823-845). -/
def indexSpecies (locate : α → Int) (inside : α → Except Err Bool) (setCell : α → Int → α)
    (s : SAP α) : Except Err (SAP α) := do
  let (s', _) ← s.outLoop (σ := Unit) (fun s v n _ => do
    let s' ← indexItems locate inside setCell v n.toNat 0 s
    return (s', ())) ()
  return s'

/-- `compute_mesh_cell_indices` (Particle_Module.py:816-850) with a mesh. -/
def indexAll (locate : α → Int) (inside : α → Except Err Bool) (setCell : α → Int → α) :
    List (SAP α) → Except Err (List (SAP α))
  | [] => .ok []
  | s :: ss => do
    let s' ← indexSpecies locate inside setCell s
    let ss' ← indexAll locate inside setCell ss
    return s' :: ss'

/-! ### Histories -/

/-- The requested quantities: 'count' and 'KE' are the names for which
`history_function_dict` has a "species_" entry (Particle_Module.py:413-419). -/
inductive Quantity where
  | count
  | KE
  | other
  deriving DecidableEq, Repr

/-- One species for the history functions: its container and mass. -/
structure HSpecies (K α : Type) where
  sap : SAP α
  mass : K

/-- `history_function_dict["species_"+hist](self, sp)`; unknown names are a KeyError. -/
def speciesValue (weight : α → K) (vel : List (α → K)) (q : Quantity) (sp : HSpecies K α) :
    Except Err (HSpecies K α × K) :=
  match q with
  | .count => .ok (sp, ((sp.sap.getNumberOfItems : Int) : K))
  | .KE => (getSpeciesKE weight vel sp.mass sp.sap).map (fun r => ({ sp with sap := r.1 }, r.2))
  | .other => .error .key

/-- What is stored for one quantity: per species the value and the value per physical particle,
and the sum over the species. -/
structure HVals (K : Type) where
  perSpecies : List (K × K)
  total : K
  deriving DecidableEq, Repr

/-- The loop over species (Particle_Module.py:2846-2856). -/
def speciesLoop [LinearOrder K] (weight : α → K) (vel : List (α → K)) (q : Quantity) :
    List (HSpecies K α) → K → Except Err (List (HSpecies K α) × HVals K)
  | [], tot => .ok ([], ⟨[], tot⟩)
  | sp :: rest, tot => do
    let (sp1, x) ← speciesValue weight vel q sp
    let (s2, n) ← getSpeciesNumber weight sp1.sap
    let (rest', h) ← speciesLoop weight vel q rest (tot + x)
    return ({ sp1 with sap := s2 } :: rest', ⟨(x, x / max n 1) :: h.perSpecies, h.total⟩)

/-- The loop over the requested quantities (Particle_Module.py:2843-2858). -/
def quantityLoop [LinearOrder K] (weight : α → K) (vel : List (α → K)) :
    List Quantity → List (HSpecies K α) → Except Err (List (HSpecies K α) × List (HVals K))
  | [], sps => .ok (sps, [])
  | q :: qs, sps => do
    let (sps', h) ← speciesLoop weight vel q sps 0
    let (sps'', hs) ← quantityLoop weight vel qs sps'
    return (sps'', h :: hs)

/-- One row of `data_array`. -/
structure HRow (K : Type) where
  step : Int
  time : K
  vals : List (HVals K)
  deriving DecidableEq, Repr

/-- The history object: `data_array` (`npoints` rows) and `counter`. -/
structure History (K : Type) where
  rows : List (HRow K)
  counter : Nat
  skip : Nat
  deriving DecidableEq, Repr

/-- `ParticleHistory_C.__init__` (RecordedData_Module.py:110-206): rows of zeros. -/
def newHistory (nTimesteps : Nat) (maxPoints : Option Nat) (zeroRow : HRow K) :
    Except Err (History K) := do
  let (skip, npoints) ← Recorded.historySizes nTimesteps maxPoints
  return ⟨List.replicate npoints zeroRow, 0, skip⟩

/-- `record_history_data(step, time)` (Particle_Module.py:2821-2864).  The first store into
`data_array[..][counter]` raises IndexError if `counter` is out of range. -/
def recordHistory [LinearOrder K] (weight : α → K) (vel : List (α → K)) (qs : List Quantity)
    (h : History K) (sps : List (HSpecies K α)) (step : Int) (time : K) :
    Except Err (History K × List (HSpecies K α)) := do
  let _ ← pyGet h.rows h.counter
  let (sps', vals) ← quantityLoop weight vel qs sps
  let rows' ← pySet h.rows h.counter ⟨step, time, vals⟩
  return ({ h with rows := rows', counter := h.counter + 1 }, sps')

end Species
end Dt
