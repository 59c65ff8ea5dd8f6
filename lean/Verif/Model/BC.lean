import Verif.Model.Track

/-!
# Model of the boundary-condition callbacks and of their selection

Simplifications: printing is omitted; the positions and velocities of a record have as
many components as the mesh has dimensions where a facet normal is used (NumPy's `dot`
raises ValueError otherwise).
-/

namespace Dt
section
variable {K : Type} [Field K] {g p : Nat} {τ ρ : Type}

/-- `default_bc`, `default_bc_at_xmin`, ...: set the delete flag
(UserParticles_1D.py:144-168, 172-193; cpp/UserParticleBoundaryFunctions.h:192-204,
217-229). -/
def bcAbsorb (st : τ) (b : BCall K g p ρ) : Except Err (τ × Part K p ρ) :=
  .ok (st, { b.part with del := true })

/-- `default_bc_at_xmax`: only prints (UserParticles_1D.py:197-208). -/
def bcNothing (st : τ) (b : BCall K g p ρ) : Except Err (τ × Part K p ρ) := .ok (st, b.part)

/-- `default_bc_at_rmin` (UserParticles_1D.py:236-303), `bc_at_rmin_for_test_electrons`
(UserParticles_2D_e.py:321-392; cpp/UserParticleBoundaryFunctions.h:240-253 with
cpp/Pstruct.h:112-121, 236-247, 377-391): reflect position and velocity in the
facet.  Without a normal `np.dot` raises TypeError. -/
def bcReflect (st : τ) (b : BCall K g g ρ) : Except Err (τ × Part K g ρ) :=
  match b.normal with
  | none => .error .type
  | some n =>
    let dxOutside := (1 - b.frac) • b.dx
    .ok (st, { b.part with
      x := b.part.x - (2 * dot n dxOutside) • n
      u := b.part.u - (2 * dot n b.part.u) • n })

end

/-! ### Selection of the callback -/

section
variable {F : Type}

/-- The inverted boundary dictionary `{v: k for k, v in pBDict.items()}`
(Particle_Module.py:3313): the last name with a given tag wins.  A dictionary is a
list of (name, tag) pairs in insertion order. -/
def invName (dict : List (String × Int)) (tag : Int) : Option String :=
  (dict.reverse.find? (fun e => e.2 == tag)).map Prod.fst

/-- `hasattr`/`getattr` on the object holding the callbacks: a partial function of the
name. -/
abbrev Callbacks (F : Type) := String → Option F

/-- The loop body for one tag and one species (Particle_Module.py:3336-3355): `none` is
Python's None. -/
def chooseBC (cb : Callbacks F) (bname sp : String) : Option F :=
  let glob := match cb "default_bc" with
    | some f => some f
    | none => none
  let bdef := match cb ("default_bc_at_" ++ bname) with
    | some f => some f
    | none => glob
  match cb ("bc_at_" ++ bname ++ "_for_" ++ sp) with
    | some f => some f
    | none => bdef

/-- `bc_function_dict[tag][sp]` after construction
(Particle_Module.py:3284-3357): outer `none` is a KeyError (the tag is not in the
boundary dictionary or the species is not listed), inner `none` is Python's None. -/
def bcDict (cb : Callbacks F) (dict : List (String × Int)) (species : List String)
    (tag : Int) (sp : String) : Option (Option F) :=
  match invName dict tag with
  | none => none
  | some bname => if sp ∈ species then some (chooseBC cb bname sp) else none

/-- Calling `bc_function_dict[tag][sp](...)` (Particle_Module.py:1771): KeyError if there
is no entry, TypeError if the entry is None. -/
def callBC {A R : Type} (cb : Callbacks (A → Except Err R)) (dict : List (String × Int))
    (species : List String) (tag : Int) (sp : String) (a : A) : Except Err R :=
  match bcDict cb dict species tag sp with
  | none => .error .key
  | some none => .error .type
  | some (some f) => f a

/-- The C++ constructor (cpp/ParticleMeshBoundaryConditions.h:91-186): the same search,
but the process exits if some boundary and species has no callback.  The
dictionary reaches C++ as a `std::map`, i.e. in alphabetical order: `sorted` is the
list of pairs in that order. -/
def cppBcDict (cb : Callbacks F) (sorted : List (String × Int)) (species : List String) :
    Except Err (Int → String → Option F) :=
  if (sorted.all fun e => species.all fun sp =>
      match invName sorted e.2 with
      | none => true
      | some bname => (chooseBC cb bname sp).isSome) = true then
    .ok (fun tag sp =>
      match invName sorted tag with
      | none => none
      | some bname => if sp ∈ species then chooseBC cb bname sp else none)
  else .error .exit

end
end Dt
