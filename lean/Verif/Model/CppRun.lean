import Verif.Model.CppProgram
import Verif.Model.CppTrack
import Verif.Model.Simulation

/-!
# Model of a program that calls the compiled movers on a mesh

`CppProgram` with the compiled movers of `CppTrack`: the programs of
tests/unit/test_cpp_ParticleMigration.py and test_cpp_ParticleNonuniformE.py.

Simplifications
* No trajectories.
* The field a mover call reads, and the time it is told, are arguments of the call.
-/

namespace Dt
namespace CppRun
open CppProgram (Op)
variable {K : Type} {g p : Nat} {τ ρ : Type}

/-- The calls of such a program. -/
inductive Call (K : Type) (p : Nat) (ρ : Type) where
  /-- `advance_charged_particles_in_E_field(neg_E_field=...)` (Particle_Module.py:1391-1413) -/
  | charged (time : K) (E : Nat → Part K p ρ → Option (Vec K p))
  /-- `advance_neutral_particles` (Particle_Module.py:1856-1876) -/
  | neutral (time : K)
  | createList (k : Nat) (q : Part K p ρ)
  | createSource (k : Nat) (q : Part K p ρ)
  | look (k : Nat)

/-- The state shared by the callbacks, the static array `dx` and the scratch array. -/
abbrev Side (K : Type) (p : Nat) (τ : Type) := (τ × Vec K p) × Scratch K

section
variable [Field K] [LinearOrder K]

/-- A call, with the compiled movers for species number `k`: `qom k` is its charge-to-mass ratio, `bc k`
its callbacks; `LC` and `LN` are the layouts of the charged and of the neutral mover. -/
def Call.op (h : g ≤ p) (LC LN : Layout K p) (cm : CppMesh K)
    (bc : Nat → Int → τ → BCall K g p ρ → Except Err (τ × Part K p ρ)) (maxCross : Nat) (dt : K) (qom : Nat → K) :
    Call K p ρ → Op (Side K p τ) (Part K p ρ)
  | .charged time E => .advance true (fun k =>
      plainAdv (cppMoveCharged h LC cm (bc k) maxCross time dt (qom k * dt) (E k)))
  | .neutral time => .advance false (fun k => plainAdv (cppMoveNeutral h LN cm (bc k) maxCross time dt))
  | .createList k q => .createList k q
  | .createSource k q => .createSource k q
  | .look k => .look k

end
end CppRun
end Dt
