import Verif.Model.OutLoop

/-!
# Model of the particle output file

`check_particle_output_parameters` (Particle_Module.py:3084-3101), `initialize_particle_output_file`
(3105-3147), `write_particles_to_file` (3151-3258); initial values 435-441.

The HDF5 file is modelled by what `h5py` promises: an ordered list of groups with distinct names,
each an ordered list of datasets with distinct names; creating something that exists, or writing to
a closed file, is a ValueError.  File attributes are left out (the title, species names; `TimeValue`
is kept).  The values of attributes are of one type `V`: the conversion to 64-bit numbers through
`h5Buf.dtype` is not modelled.
A call that raises leaves behind what it did before; so results are a pair (state, exception).
-/

namespace Dt
namespace Output
variable {α V T : Type}

/-- A requested attribute: the species number, or a field of the particle record.
`numeric`: the type of the field is a float or integer type. -/
inductive Col (α V : Type) where
  | speciesIndex
  | field (get : α → V) (numeric : Bool)
  | missing

/-- An entry of `ctrl.particle_output_attributes`, resolved against `particle_dtype`. -/
structure Attr (α V : Type) where
  name : String
  col : Col α V

/-- `check_particle_output_parameters` (Particle_Module.py:3084-3101). -/
def checkParameters : List (Attr α V) → Except Err Unit
  | [] => .ok ()
  | a :: as =>
    match a.col with
    | .missing => .error .runtime
    | _ => checkParameters as

/-- A group "Step#<num>" of the file with its `TimeValue`. -/
structure Group (V T : Type) where
  num : Nat
  time : T
  data : List (String × List V)

/-- The file. -/
structure File (V T : Type) where
  groups : List (Group V T)
  isOpen : Bool

/-- The output state of `Particle_C`; `bufLength` is `h5_buffer_length`, `segLength` is
`SEGMENT_LENGTH`. -/
structure Writer (V T : Type) where
  file : File V T
  counter : Nat
  lastStep : Int
  bufLength : Nat
  buf : List V
  segLength : Nat

/-- One species: container, `species_index`. -/
structure Species (α V : Type) where
  sap : SAP α
  index : V

/-- The values after `__init__` (Particle_Module.py:435-441) and the opening of the file
(3105-3147). -/
def newWriter (nSpecies segLength : Nat) (junk : V) : Writer V T :=
  ⟨⟨[], true⟩, 0, -1, nSpecies * segLength, List.replicate (nSpecies * segLength) junk, segLength⟩

/-- `initialize_particle_output_file` (Particle_Module.py:3105-3147): a new file, `h5_step_counter`
is reset. -/
def openFile (w : Writer V T) : Writer V T :=
  { w with file := ⟨[], true⟩, counter := 0 }

/-- `buf[a:b] = vals` for an array `vals`: the slice is clipped to the buffer; the lengths must
agree, or `vals` is broadcast if it has one entry. -/
def sliceSet (buf : List V) (a b : Nat) (vals : List V) : Except Err (List V) :=
  let lo := min a buf.length
  let hi := min b buf.length
  let m := hi - lo
  if vals.length = m then .ok (buf.take lo ++ vals ++ buf.drop (lo + m))
  else
    match vals with
    | [v] => .ok (buf.take lo ++ List.replicate m v ++ buf.drop (lo + m))
    | _ => .error .value

/-- `buf[a:b] = v` for a scalar. -/
def sliceFill (buf : List V) (a b : Nat) (v : V) : List V :=
  let lo := min a buf.length
  let hi := min b buf.length
  let m := hi - lo
  buf.take lo ++ List.replicate m v ++ buf.drop (lo + m)

/-- The body of the loop over species (Particle_Module.py:3207-3236): buffer and `aOff`.
`npSeg` is the length of the piece `pseg` (see `readBody`). -/
def fillSpecies (col : Col α V) (sp : Species α V) (st : List V × Nat) :
    Except Err (Species α V × (List V × Nat)) :=
  if sp.sap.getNumberOfItems = 0 then .ok (sp, st)
  else
    match col with
    | .speciesIndex =>
      let n := sp.sap.getNumberOfItems.toNat
      .ok (sp, (sliceFill st.1 st.2 (st.2 + n) sp.index, st.2 + n))
    | .field get _ => do
      let (s', st') ← sp.sap.outLoop (SAP.readBody (fun (st : List V × Nat) ps => do
        let buf' ← sliceSet st.1 st.2 (st.2 + ps.length) (ps.map get)
        return (buf', st.2 + ps.length))) st
      return ({ sp with sap := s' }, st')
    | .missing => .error .key

/-- The loop over species. -/
def fillAll (col : Col α V) : List (Species α V) → List V × Nat →
    Except Err (List (Species α V) × (List V × Nat))
  | [], st => .ok ([], st)
  | sp :: sps, st => do
    let (sp', st') ← fillSpecies col sp st
    let (sps', st'') ← fillAll col sps st'
    return (sp' :: sps', st'')

/-- The choice of the type of the buffer (Particle_Module.py:3192-3204). -/
def checkType (col : Col α V) : Except Err Unit :=
  match col with
  | .speciesIndex => .ok ()
  | .field _ true => .ok ()
  | .field _ false => .error .runtime
  | .missing => .error .key

/-- One round of the loop on the attributes up to the dataset (Particle_Module.py:3189-3239):
the new buffer, species and dataset. -/
def column (a : Attr α V) (sps : List (Species α V)) (buf : List V) :
    Except Err (List (Species α V) × List V × List V) := do
  checkType a.col
  let (sps', (buf', aOff)) ← fillAll a.col sps (buf, 0)
  return (sps', buf', buf'.take aOff)

/-- `group.create_dataset(pA, data=...)` into the newest group. -/
def addDataset (f : File V T) (name : String) (data : List V) : Except Err (File V T) :=
  match f.groups.reverse with
  | [] => .error .value
  | g :: gs =>
    if name ∈ g.data.map (·.1) then .error .value
    else .ok { f with groups := (({ g with data := g.data ++ [(name, data)] }) :: gs).reverse }

/-- The loop on the attributes; on an exception the datasets made so far stay. -/
def columns : List (Attr α V) → Writer V T → List (Species α V) →
    Writer V T × List (Species α V) × Option Err
  | [], w, sps => (w, sps, none)
  | a :: as, w, sps =>
    match column a sps w.buf with
    | .error e => (w, sps, some e)
    | .ok (sps', buf', data) =>
      match addDataset w.file a.name data with
      | .error e => ({ w with buf := buf' }, sps', some e)
      | .ok f => columns as { w with buf := buf', file := f } sps'

/-- `create_group` and `TimeValue` (Particle_Module.py:3175-3179). -/
def addGroup (f : File V T) (num : Nat) (time : T) : Except Err (File V T) :=
  if f.isOpen = false then .error .value
  else if num ∈ f.groups.map Group.num then .error .value
  else .ok { f with groups := f.groups ++ [⟨num, time, []⟩] }

/-- The enlargement of the buffer (Particle_Module.py:3181-3191). -/
def growBuffer (w : Writer V T) (total : Int) (junk : V) : Writer V T :=
  if total > w.bufLength then
    let newNumSegs := (1 + total.fdiv w.segLength).toNat
    { w with bufLength := newNumSegs * w.segLength, buf := List.replicate (newNumSegs * w.segLength) junk }
  else w

/-- `get_total_particle_count` (Particle_Module.py:767-781). -/
def totalCount (sps : List (Species α V)) : Int :=
  sps.foldl (fun n sp => n + sp.sap.getNumberOfItems) 0

/-- `write_particles_to_file` (Particle_Module.py:3151-3258) at `ctrl.timeloop_count = step`,
`ctrl.time = time`; `junk` is what `np_m.empty` contains. -/
def write (attrs : List (Attr α V)) (junk : V) (w : Writer V T) (sps : List (Species α V))
    (step : Int) (time : T) (close : Bool) : Writer V T × List (Species α V) × Option Err :=
  if step = w.lastStep then (w, sps, none)
  else
    match addGroup w.file w.counter time with
    | .error e => (w, sps, some e)
    | .ok f =>
      let w1 := growBuffer { w with file := f } (totalCount sps) junk
      match columns attrs w1 sps with
      | (w2, sps2, some e) => (w2, sps2, some e)
      | (w2, sps2, none) =>
        ({ w2 with counter := w2.counter + 1, lastStep := step,
                   file := { w2.file with isOpen := w2.file.isOpen && !close } }, sps2, none)

end Output
end Dt
