import Verif.Model.BC

/-!
# Model of the boundary functions that come with the code

The modules UserParticles_*.py and the headers cpp/U*BF*.h define, under the names that the selection looks
up, functions of three kinds.  The tables below list the name and the kind of every one of them.
Functions whose names are never looked up (`INACTIVE_default_bc_at_rmin`, UserParticles_1D.py:303-320) are
left out.  Simplification: printing is omitted.
-/

namespace Dt

/-- What a boundary function does with a particle. -/
inductive Act | absorb | reflect | nothing
  deriving DecidableEq, Repr

/-- The function of a given kind: `bcAbsorb`, `bcReflect`, `bcNothing`, each cited there. -/
def Act.run {K : Type} [Field K] {g : Nat} {τ ρ : Type} (a : Act) (c : τ × BCall K g g ρ) :
    Except Err (τ × Part K g ρ) :=
  match a with
  | .absorb => bcAbsorb c.1 c.2
  | .reflect => bcReflect c.1 c.2
  | .nothing => bcNothing c.1 c.2

/-- The attributes of an object, by name. -/
def attrs (l : List (String × Act)) : Callbacks Act := fun s => l.lookup s

/-- `UserParticleBoundaryFunctions_C` of UserParticles_1D.py (144-165, 172-193, 197-208, 212-230, 236-298,
325-338, 343-363). -/
def user1D : Callbacks Act := attrs [
  ("default_bc", .absorb),
  ("default_bc_at_xmin", .absorb),
  ("default_bc_at_xmax", .nothing),
  ("bc_at_xmin_for_neutral_H", .absorb),
  ("default_bc_at_rmin", .reflect),
  ("default_bc_at_rmax", .absorb),
  ("bc_at_rmin_for_neutral_H", .absorb)]

/-- `UserParticleBoundaryFunctions_C` of UserParticles_2D_e.py (295-305, 311-327, 331-389). -/
def user2De : Callbacks Act := attrs [
  ("default_bc", .absorb),
  ("default_bc_at_rmin", .absorb),
  ("bc_at_rmin_for_test_electrons", .reflect)]

/-- `UserParticleBoundaryFunctions_C` of UserParticles_3D.py (113-119, 122-142, 146-152, 155-171, 174-180,
183-200). -/
def user3D : Callbacks Act := attrs [
  ("default_bc", .nothing),
  ("default_bc_at_xmin", .absorb),
  ("default_bc_at_xmax", .nothing),
  ("default_bc_at_ymin", .absorb),
  ("default_bc_at_ymax", .nothing),
  ("bc_at_xmin_for_neutral_H", .absorb)]

/-- `bc_function_map` of cpp/UserParticleBoundaryFunctions.h (127-151, 186-254) and of
cpp/UserParticleBoundaryFunctions_2D_e.h (133-157, 192-260), which list the same functions. -/
def cppUser : Callbacks Act := attrs [
  ("default_bc", .absorb),
  ("default_bc_at_rmin", .absorb),
  ("bc_at_rmin_for_test_electrons", .reflect)]

/-- `bc_function_map` of cpp/UPBFs_spherical_r.h (126-142, 177-225). -/
def cppSphericalR : Callbacks Act := attrs [
  ("default_bc", .absorb),
  ("default_bc_at_rmin", .reflect)]

/-- The functions of a table. -/
def acting {K : Type} [Field K] {g : Nat} {τ ρ : Type} (t : Callbacks Act) :
    Callbacks (τ × BCall K g g ρ → Except Err (τ × Part K g ρ)) := fun s => (t s).map Act.run

end Dt
