import Verif.Model.CppRounded
import Verif.Model.Simulation

/-!
# Compiled programs in machine arithmetic

Simplification: only the movers round; densities, the solver and the time are those of `CppLoop`.
-/

namespace Dt.CppRounded
open TimeLoop (Cfg Src)
variable {K V φ : Type} [Field K] [LinearOrder K] {g p : Nat} {τ ρ : Type}

/-- One particle of a neutral species (cpp/advance_neutral_species_cartesian_xyz.cpp:143-323, as `cppMoveNeutral`). -/
def moveNeutral (A : CArith K) (h : g ≤ p) (L : Layout K p) (M : CppMesh K)
    (bc : Int → τ → BCall K g p ρ → Except Err (τ × Part K p ρ)) (maxCross : Nat) (time dt : K)
    (st : (τ × Vec K p) × Scratch K) (q : Part K p ρ) :
    Except Err (((τ × Vec K p) × Scratch K) × Part K p ρ × List (Part K p ρ × K)) := do
  let (s, sc') ← track A h L M bc maxCross st.2 (startTrk A time dt st.1.1 st.1.2 (moveBy A dt q))
  return (((s.st, s.dxS), sc'), { s.part with crossings := s.count }, s.events)

/-- The compiled mover of the species `sn` (advance_charged_species_in_E_field_cartesian_xy.cpp:100, 232-437). -/
def cppMove (C : CArith K) (h : g ≤ p) (L : Layout K p) (cm : CppMesh K)
    (bc : String → Int → τ → BCall K g p ρ → Except Err (τ × Part K p ρ)) (maxCross : Nat) (dt : K) (qom : String → K)
    (E : String → φ → Part K p ρ → Option (Vec K p)) :
    String → φ → Int → K → Adv ((τ × Vec K p) × Scratch K) (Part K p ρ) := fun sn f _ time =>
  plainAdv (move C h L cm (bc sn) maxCross time dt (C.fl (qom sn * dt)) (E sn f))

/-- A source of particles beside the scratch array of the mover, which it does not touch (Particle_Module.py:693-719). -/
def besideScratch {σ α : Type} (s : Src K α σ) : Src K α (σ × Scratch K) :=
  ⟨s.name, s.species, s.interval, fun c t side =>
    match s.make c t side.1 with
    | .error e => .error e
    | .ok (side', xs) => .ok ((side', side.2), xs)⟩

/-- The simulation `cfg` with a compiled mover `move` in place of its own (Particle_Module.py:1400-1412 chooses between them). -/
def withMove {σ α : Type} (cfg : Cfg K V α σ φ) (move : String → φ → Int → K → Adv (σ × Scratch K) α) :
    Cfg K V α (σ × Scratch K) φ where
  dt := cfg.dt
  move := move
  sources := cfg.sources.map besideScratch
  attrs := cfg.attrs
  junk := cfg.junk
  partEvery := cfg.partEvery
  cellEvery := cfg.cellEvery
  fieldEvery := cfg.fieldEvery
  quantities := cfg.quantities
  vel := cfg.vel
  A := cfg.A
  SD := cfg.SD
  SC := cfg.SC
  vol := cfg.vol
  ncell := cfg.ncell
  bc := cfg.bc
  solve := cfg.solve
  factor := cfg.factor
  fieldOf := cfg.fieldOf

end Dt.CppRounded
