import Verif.Model.BC

/-!
# Model of the table of source functions

`ParticleMeshSources_C.__init__` (Particle_Module.py:3385-3443), which is offered to users (Particle_Module.py:12) and marked
as unfinished.

Simplifications
* Printing is omitted, but for the test of the undefined name `printTag` (3439), which is a NameError.
* The dictionaries of dictionaries are lists of entries in the order of insertion.
-/

namespace Dt
namespace MeshSources
variable {F : Type}

/-- `list({v: k for k, v in pSrcDict.items()}.keys())` (Particle_Module.py:3396-3398): each tag once, in the order of the
first occurrence. -/
def tags (dict : List (String × Int)) : List Int :=
  dict.foldl (fun l e => if e.2 ∈ l then l else l ++ [e.2]) []

/-- A table of functions: `srcFunctionDict[tag][species]`; `none` is None. -/
abbrev Table (F : Type) := List ((Int × String) × Option F)

/-- The table with None everywhere (Particle_Module.py:3404). -/
def emptyTable (ts : List Int) (species : List String) : Table F :=
  ts.flatMap (fun t => species.map (fun sp => ((t, sp), none)))

/-- `self.srcFunctionDict[intTag][sp] = srcFunction` (3441). -/
def put (tab : Table F) (t : Int) (sp : String) (f : Option F) : Table F :=
  tab.map (fun e => if e.1 = (t, sp) then (e.1, f) else e)

/-- The inner loop (Particle_Module.py:3428-3441); `bdef` is the default for the boundary. -/
def loopSpecies (cb : Callbacks F) (bname : String) (t : Int) (bdef : Option F) : List String → Table F → Except Err (Table F)
  | [], tab => .ok tab
  | sp :: sps, tab => do
    let f := match cb ("bc_at_" ++ bname ++ "_for_" ++ sp) with
      | some f => some f
      | none => bdef
    -- `if srcFunction is None: print ... elif printTag: ...`
    if f.isSome then .error .name
    else loopSpecies cb bname t bdef sps (put tab t sp f)

/-- The outer loop (Particle_Module.py:3421-3441). -/
def loopTags (cb : Callbacks F) (dict : List (String × Int)) (species : List String) (glob : Option F) :
    List Int → Table F → Except Err (Table F)
  | [], tab => .ok tab
  | t :: ts, tab => do
    match invName dict t with
    | none => .error .key
    | some bname => do
      let bdef := match cb ("default_bc_at_" ++ bname) with
        | some f => some f
        | none => glob
      let tab ← loopSpecies cb bname t bdef species tab
      loopTags cb dict species glob ts tab

/-- `ParticleMeshSources_C.__init__` (Particle_Module.py:3385-3443); the dictionary may be None. -/
def create (cb : Callbacks F) (dict : Option (List (String × Int))) (species : List String) : Except Err (Table F) :=
  match dict with
  | none => .error .attribute
  | some d =>
    let glob := match cb "default_bc" with
      | some f => some f
      | none => none
    loopTags cb d species glob (tags d) (emptyTable (tags d) species)

end MeshSources
end Dt
