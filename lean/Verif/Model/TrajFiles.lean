import Verif.Model.TrajLoop

/-!
# Model of the trajectory files

`Trajectory_C.write_trajectories_to_files` (RecordedData_Module.py:586-681) on the lists filled by
`create_trajectory` (RecordedData_Module.py:419-453) and the recording functions (Model/Traj.lean).

Simplifications
* The disk is a function from file names to files; an h5 file is its attributes and its groups
  `Step#i`, each an attribute `TimeValue` and scalar datasets, in the order in which they were made.
* What an interrupted call leaves in the file it was writing is taken to be what had been written.
* `val d n` is the value stored under the name `n` in the point `d`; `wide` is the conversion to
  float64 or int64 made by `h5Buf[0] = ...`.
* The operating system refuses no file.
-/

namespace Dt
namespace TrajFiles
variable {δ V : Type}

/-- The three cases of the test of an attribute's type (RecordedData_Module.py:626-634). -/
inductive Kind where
  | floating | integer | other
  deriving DecidableEq, Repr

/-- The value of an h5 attribute. -/
inductive Att (V : Type) where
  | str (s : String)
  | num (v : V)
  deriving DecidableEq, Repr

/-- A group `Step#i`: the attribute `TimeValue` (if it has been written), the datasets. -/
structure Group (V : Type) where
  name : String
  time : Option V
  sets : List (String × V)
  deriving DecidableEq, Repr

/-- A file. -/
structure File (V : Type) where
  attrs : List (String × Att V)
  groups : List (Group V)
  deriving DecidableEq, Repr

/-- The working directory. -/
abbrev Disk (V : Type) := String → Option (File V)

/-- `ctrl.title` and `ctrl.author` (RecordedData_Module.py:389-390); both may be None. -/
structure Heading where
  title : Option String
  author : Option String

/-- What the trajectory object knows about one species: its name, `species_index`, `species_mass`,
`species_charge`, the names and types of the recorded attributes (`charged_dict` or `neutral_dict`),
the lists, and `particle_unique_id_list` (RecordedData_Module.py:371-409). -/
structure Species (δ V : Type) where
  name : String
  index : Nat
  mass : V
  charge : V
  atts : List (String × Kind)
  tr : TrajSp δ
  uids : List (Option Int)

/-- `"traj-%s-uid%d.h5part" % (sp, uid)` (RecordedData_Module.py:651). -/
def fileName (sp : String) (uid : Int) : String :=
  "traj-" ++ sp ++ "-uid" ++ uid.repr ++ ".h5part"

/-- `handle.attrs[key] = value`: an old value is replaced; None is a TypeError
(RecordedData_Module.py:655-667). -/
def setAttr (key : String) (v : Option (Att V)) (f : File V) : File V × Option Err :=
  match v with
  | none => (f, some .type)
  | some a => ({ f with attrs := f.attrs.filter (fun e => e.1 ≠ key) ++ [(key, a)] }, none)

/-- One statement after another, unless the first one raises. -/
def andThen {β : Type} (r : β × Option Err) (g : β → β × Option Err) : β × Option Err :=
  match r with
  | (f, none) => g f
  | (f, some e) => (f, some e)

/-- `for name in particleAttNames` (RecordedData_Module.py:673-678): `create_dataset` refuses a name
that the group has already. -/
def putSets (val : δ → String → V) (wide : Kind → V → V) (d : δ) :
    List (String × Kind) → Group V → Group V × Option Err
  | [], g => (g, none)
  | (n, k) :: as, g =>
    if g.sets.any (fun e => e.1 == n) then (g, some .value)
    else putSets val wide d as { g with sets := g.sets ++ [(n, wide k (val d n))] }

/-- `for i in range(nTimes)` (RecordedData_Module.py:670-678); `i` is the loop variable, `k`
iterations remain.  `create_group` refuses a name that the file has already; without an attribute
named `t` the subscript is a ValueError. -/
def putSteps (val : δ → String → V) (wide : Kind → V → V) (atts : List (String × Kind)) (row : List δ) :
    Nat → Nat → File V → File V × Option Err
  | 0, _, f => (f, none)
  | k + 1, i, f =>
    let name := "Step#" ++ Nat.repr i
    if f.groups.any (fun g => g.name == name) then (f, some .value)
    else if ("t" ∈ atts.map Prod.fst) then
      match row[i]? with
      | none => ({ f with groups := f.groups ++ [⟨name, none, []⟩] }, some .index)
      | some d =>
        let r := putSets val wide d atts ⟨name, some (val d "t"), []⟩
        andThen ({ f with groups := f.groups ++ [r.1] }, r.2) (putSteps val wide atts row k (i + 1))
    else ({ f with groups := f.groups ++ [⟨name, none, []⟩] }, some .value)

/-- The file of trajectory `it` of a species (RecordedData_Module.py:653-680), from the opening with
"w", which empties the file. -/
def fill (h : Heading) (val : δ → String → V) (wide : Kind → V → V) (s : Species δ V) (row : List δ)
    (it : Nat) : File V × Option Err :=
  andThen (setAttr "Title:" (h.title.map .str) ⟨[], []⟩) fun f =>
  andThen (setAttr "Author:" (h.author.map .str) f) fun f =>
  andThen (setAttr ("particle_type_" ++ Nat.repr s.index) (some (.str s.name)) f) fun f =>
  andThen (setAttr ("mass_" ++ Nat.repr s.index) (some (.num s.mass)) f) fun f =>
  andThen (setAttr ("charge_" ++ Nat.repr s.index) (some (.num s.charge)) f) fun f =>
  match s.tr.len[it]? with
  | none => (f, some .index)
  | some n => putSteps val wide s.atts row n 0 f

/-- One turn of the loop over trajectories (RecordedData_Module.py:639-680): `%d` of None is a
TypeError. -/
def writeOne (h : Heading) (val : δ → String → V) (wide : Kind → V → V) (s : Species δ V) (it : Nat)
    (disk : Disk V) : Disk V × Option Err :=
  match s.tr.data[it]? with
  | none => (disk, some .index)
  | some row =>
    match s.uids[it]? with
    | none => (disk, some .index)
    | some none => (disk, some .type)
    | some (some uid) =>
      let r := fill h val wide s row it
      (fun n => if n = fileName s.name uid then some r.1 else disk n, r.2)

/-- `for it in range(len(self.particle_index_list[sp]))` (RecordedData_Module.py:639). -/
def writeLoop (h : Heading) (val : δ → String → V) (wide : Kind → V → V) (s : Species δ V) :
    Nat → Nat → Disk V → Disk V × Option Err
  | 0, _, disk => (disk, none)
  | k + 1, it, disk =>
    andThen (writeOne h val wide s it disk) (writeLoop h val wide s k (it + 1))

/-- The body of the loop over species (RecordedData_Module.py:603-680). -/
def writeSpecies (h : Heading) (val : δ → String → V) (wide : Kind → V → V) (s : Species δ V)
    (disk : Disk V) : Disk V × Option Err :=
  if s.tr.data = [] then (disk, none)
  else if s.atts.any (fun a => a.2 == .other) then (disk, some .runtime)
  else writeLoop h val wide s s.tr.idx.length 0 disk

/-- `write_trajectories_to_files` (RecordedData_Module.py:586-681) for
`charged_species + neutral_species`. -/
def writeFiles (h : Heading) (val : δ → String → V) (wide : Kind → V → V) :
    List (Species δ V) → Disk V → Disk V × Option Err
  | [], disk => (disk, none)
  | s :: ss, disk => andThen (writeSpecies h val wide s disk) (writeFiles h val wide ss)

/-! ### The unique IDs of a program's trajectories -/

/-- Do something with entry `k`. -/
def modifyAt {β : Type} (f : β → β) : Nat → List β → List β
  | _, [] => []
  | 0, b :: bs => f b :: bs
  | k + 1, b :: bs => b :: modifyAt f k bs

/-- `particle_unique_id_list[species_name].append(unique_id_int)` (RecordedData_Module.py:437) in the
calls made by `create_from_list` and `create_maxwellian_particles` (Particle_Module.py:637, 3047),
which pass the particle's `unique_ID`.  The flag tested is that of the particle made (for
`create_from_list` it is the record read back, see `TrajLoop.startTrajectory`). -/
def noteId {τ α T : Type} (c : TrajLoop.Cfg α δ) (uid : α → Int) (ids : List (List (Option Int))) :
    TrajLoop.Op τ α δ T → List (List (Option Int))
  | .create k p _ => if c.isTraj p then modifyAt (· ++ [some (uid p)]) k ids else ids
  | _ => ids

/-- The unique IDs after a program. -/
def idsOf {τ α T : Type} (c : TrajLoop.Cfg α δ) (uid : α → Int) (n : Nat)
    (ops : List (TrajLoop.Op τ α δ T)) : List (List (Option Int)) :=
  ops.foldl (noteId c uid) (List.replicate n [])

end TrajFiles
end Dt
