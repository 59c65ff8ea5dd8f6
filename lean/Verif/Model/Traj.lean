import Verif.Model.Mover

/-!
# Model of trajectory storage

`Trajectory_C` (RecordedData_Module.py:309-453) and the functions of
`Particle_C` that fill it (Particle_Module.py:2292-2542, 2679-2818).

A recorded point has type `δ`; it stands for the values stored under all the
names of `charged_dict` / `neutral_dict` at one position of the data arrays
(the source loops over the names; all names are written at the same position).
The functions building points (`mk...`) are arguments.

Simplifications
* One species' lists (`particle_index_list[sn]`, `trajectory_length[sn]`,
  `data_list[sn]`) are one `TrajSp`; the dictionaries over species become lists.
* `particle_unique_id_list` is only used by the output routines; it is in Model/TrajFiles.lean.
* Printing is omitted.
-/

namespace Dt

/-- The three lists of one species (RecordedData_Module.py:395-409). -/
structure TrajSp (δ : Type) where
  idx : List Int
  len : List Nat
  data : List (List δ)
  deriving DecidableEq, Repr

namespace TrajSp
variable {δ α : Type}

/-- `Trajectory_C.NO_PINDEX` (RecordedData_Module.py:325). -/
def noPindex : Int := -1

/-- A species without trajectories (RecordedData_Module.py:405-409). -/
def empty : TrajSp δ := ⟨[], [], []⟩

/-- `create_trajectory` (RecordedData_Module.py:419-453) for a known dynamics
type; `junk` stands for the contents of `np_m.empty`. -/
def create (npoints : Nat) (junk : δ) (t : TrajSp δ) (pindex : Int) : TrajSp δ :=
  { idx := t.idx ++ [pindex]
    len := t.len ++ [0]
    data := t.data ++ [List.replicate npoints junk] }

/-- Python `xs.index(v)`: first position, ValueError if absent. -/
def indexOf (xs : List Int) (v : Int) : Except Err Nat :=
  match xs.findIdx? (· == v) with
  | some j => .ok j
  | none => .error .value

/-- The stores `data_list[sn][j][comp][newpoint] = ...` for every name, then
`trajectory_length[sn][j] += 1` (e.g. Particle_Module.py:2507-2538). -/
def putPoint (t : TrajSp δ) (j : Nat) (newpoint : Nat) (d : δ) : Except Err (TrajSp δ) := do
  let row ← pyGet t.data j
  let row' ← pySet row newpoint d
  let data' ← pySet t.data j row'
  let len' ← pySet t.len j (newpoint + 1)
  return { t with data := data', len := len' }

/-- `record_trajectory_datum` (Particle_Module.py:2430-2542) with `traj_T` not
None; `d` is the point computed from the particle record. -/
def recordDatum (npoints : Nat) (t : TrajSp δ) (fullIndex : Int) (d : δ) :
    Except Err (TrajSp δ) := do
  let j ← indexOf t.idx fullIndex
  let newpoint ← pyGet t.len j
  if (newpoint : Int) > (npoints : Int) - 1 then return t
  else putPoint t j newpoint d

/-- `update_trajectory_particleId` (Particle_Module.py:2292-2318), given the
full indices. -/
def update (t : TrajSp δ) (fullIn fullOut : Int) : Except Err (TrajSp δ) := do
  let j ← indexOf t.idx fullIn
  let idx' ← pySet t.idx j fullOut
  return { t with idx := idx' }

/-- `remove_trajectory_particleId` (Particle_Module.py:2321-2427), given the
full "in" index; `mk step time` builds the last point from the particle's
"out" record. -/
def remove {T : Type} [Add T] (npoints : Nat) (lastStep : Option Int) (t : TrajSp δ)
    (fullIn : Int) (step : Int) (time dt : T) (mk : Int → T → δ) : Except Err (TrajSp δ) := do
  let (finalStep, finalTime) :=
    if some step = lastStep then (step + 1, time + dt) else (step, time)
  let j ← indexOf t.idx fullIn
  let newpoint ← pyGet t.len j
  if (newpoint : Int) > (npoints : Int) - 1 then
    let idx' ← pySet t.idx j noPindex
    return { t with idx := idx' }
  else
    let t1 ← putPoint t j newpoint (mk finalStep finalTime)
    let idx' ← pySet t1.idx j noPindex
    return { t1 with idx := idx' }

/-- "If this was a trajectory particle, remove its index"
(Particle_Module.py:1821-1827; also 1358-1362, 2113-2119). -/
def bookDeleted {T : Type} [Add T] (npoints : Nat) (lastStep : Option Int) (step : Int)
    (time dt : T) (flag : Bool) (mk : Int → T → δ) (t : TrajSp δ) (iIn : Int) :
    Except Err (TrajSp δ) :=
  if flag then remove npoints lastStep t iIn step time dt mk else .ok t

/-- "If this is a trajectory particle, update its SA index"
(Particle_Module.py:1809-1814; also 1344-1349, 2101-2106). -/
def bookKept (flag indexChange : Bool) (t : TrajSp δ) (iIn iOut : Int) : Except Err (TrajSp δ) :=
  if flag && indexChange then update t iIn iOut else .ok t

/-- The trajectory bookkeeping of the mesh movers around the motion of one
particle (Particle_Module.py:1704-1745, 1803-1827; also 1290-1362 and
2053-2119).

`core` moves the particle; it returns the new record and the crossings of
marked facets on the way (the record at that moment and the crossing time), in
order.  `isTraj` / `isDel` test TRAJECTORY_FLAG / DELETE_FLAG of a record. -/
def adv {T τ : Type} [Add T] (npoints : Nat) (lastStep : Option Int) (step : Int) (time dt : T)
    (isTraj isDel : α → Bool) (mkCross : Int → T → α → δ) (mkFinal : Int → T → α → δ)
    (core : τ → α → Except Err (τ × α × List (α × T))) : Adv (τ × TrajSp δ) α :=
  fun (τ0, t) iIn iOut indexChange p => do
    let (τ1, p', events) ← core τ0 p
    let t1 ← events.foldlM (fun t ev =>
      if isTraj ev.1 then recordDatum npoints t iIn (mkCross step ev.2 ev.1) else .ok t) t
    if isDel p' then
      let t2 ← bookDeleted npoints lastStep step time dt (isTraj p)
        (fun s ft => mkFinal s ft p') t1 iIn
      return ((τ1, t2), p', false)
    else
      let t2 ← bookKept (isTraj p') indexChange t1 iIn iOut
      return ((τ1, t2), p', true)

end TrajSp

/-- The trajectory object: `npoints`, `last_step` and the species
(RecordedData_Module.py:328-417). -/
structure Traj (δ : Type) where
  npoints : Nat
  lastStep : Option Int
  charged : List (TrajSp δ)
  neutral : List (TrajSp δ)
  deriving DecidableEq, Repr

namespace Traj
variable {δ α : Type}

/-- The loop over the trajectories of one charged species
(Particle_Module.py:2714-2774).  `k` iterations remain, `i` is the loop
variable.  The Boolean result is `true` if the function returned early
because a buffer is full. -/
def chargedLoop (npoints : Nat) (sap : SAP α) (mk : α → δ) :
    Nat → Nat → TrajSp δ → Except Err (TrajSp δ × Bool)
  | 0, _, t => .ok (t, false)
  | k + 1, i, t => do
    let ip ← pyGet t.idx i
    if ip = TrajSp.noPindex then chargedLoop npoints sap mk k (i + 1) t
    else
      let (pseg, offset) ← sap.getSegmentAndOffset ip
      let p ← pyGet pseg offset
      let newpoint ← pyGet t.len i
      if (newpoint : Int) > (npoints : Int) - 1 then return (t, true)
      else
        let t' ← t.putPoint i newpoint (mk p)
        chargedLoop npoints sap mk k (i + 1) t'

/-- The loop over the trajectories of one neutral species
(Particle_Module.py:2780-2810): no test of the buffer size. -/
def neutralLoop (sap : SAP α) (mk : α → δ) :
    Nat → Nat → TrajSp δ → Except Err (TrajSp δ)
  | 0, _, t => .ok t
  | k + 1, i, t => do
    let ip ← pyGet t.idx i
    if ip = TrajSp.noPindex then neutralLoop sap mk k (i + 1) t
    else
      let (pseg, offset) ← sap.getSegmentAndOffset ip
      let p ← pyGet pseg offset
      let newpoint ← pyGet t.len i
      let t' ← t.putPoint i newpoint (mk p)
      neutralLoop sap mk k (i + 1) t'

/-- `for sp in traj_T.charged_species` (Particle_Module.py:2712-2776). -/
def chargedSpecies (npoints : Nat) (mk : α → δ) :
    List (TrajSp δ) → List (SAP α) → Except Err (List (TrajSp δ) × Bool)
  | t :: ts, s :: ss => do
    let (t', early) ← chargedLoop npoints s mk t.idx.length 0 t
    if early then return (t' :: ts, true)
    else
      let (ts', early') ← chargedSpecies npoints mk ts ss
      return (t' :: ts', early')
  | ts, _ => .ok (ts, false)

/-- `for sp in traj_T.neutral_species` (Particle_Module.py:2778-2811). -/
def neutralSpecies (mk : α → δ) :
    List (TrajSp δ) → List (SAP α) → Except Err (List (TrajSp δ))
  | t :: ts, s :: ss => do
    let t' ← neutralLoop s mk t.idx.length 0 t
    let ts' ← neutralSpecies mk ts ss
    return t' :: ts'
  | ts, _ => .ok ts

/-- `record_trajectory_data` (Particle_Module.py:2679-2818).  `mkC`/`mkN` build
the point from the particle for the given step and time (the fields are read
at the particle position and are part of `mkC`). -/
def recordData (tr : Traj δ) (saC saN : List (SAP α)) (step : Int) (mkC mkN : α → δ) :
    Except Err (Traj δ) := do
  if some step = tr.lastStep then return tr
  else
    let (c', early) ← chargedSpecies tr.npoints mkC tr.charged saC
    if early then return { tr with charged := c' }
    else
      let n' ← neutralSpecies mkN tr.neutral saN
      return { tr with charged := c', neutral := n', lastStep := some step }

end Traj
end Dt
