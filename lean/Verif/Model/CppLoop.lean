import Verif.Model.TimeLoop
import Verif.Model.CppProgram
import Verif.Model.CppTrack
import Verif.Model.Simulation

/-!
# Model of a simulation with compiled movers and containers

`examples/cpp/sphere1D/sphere1D.py`, the sections INIT, RUN and FIN.1 (the same as in
`examples/sphere1D/sphere1D.py`, see `TimeLoop`), with `use_cpp_integrators = True`: the species have
compiled containers, `advance_charged_particles_in_E_field` calls the compiled movers
(Particle_Module.py:1399-1405), initial particles are pushed as tuples, sources push NumPy arrays.

Simplifications
* Those of `TimeLoop` and `CppProgram`.
* The particle file and the histories are represented by what goes into them: step, time and the
  particles met in the loops over the containers (the arrangement in the file and the sums are those of
  `Output` and `Species`, the same code for both kinds of containers).  The file remembers the step
  written last (Particle_Module.py:3150-3240), its closing is not modelled.  The number of rows
  reserved for histories is not limited.
* A loop over the particles first collects them (`look`), then they are used.
-/

namespace Dt
namespace CppLoop
open TimeLoop (Cfg Src due)

variable {K V α σ φ : Type}

/-- One species: compiled container, constants, and the number-density fields (as `TimeLoop.Sp`). -/
structure Sp (K V α : Type) where
  name : String
  sap : CSAP α
  charge : K
  mass : K
  index : V
  dof : List K
  cell : List K

/-- The particle file: the step written last, and step, time and particles of what was written. -/
structure File (K V α : Type) where
  last : Int
  groups : List (Int × K × List (V × List α))

/-- The histories: `histories_step_skip`, and what was recorded. -/
structure Hist (K α : Type) where
  skip : Int
  rows : List (Int × K × List (K × List α))

/-- What changes (as `TimeLoop.State`). -/
structure State (K V α σ φ : Type) where
  count : Int
  time : K
  sps : List (Sp K V α)
  side : σ
  field : φ
  solver : Fld.SolveSt K
  file : Option (File K V α)
  hist : Option (Hist K α)
  phiLog : List (K × List K)
  cellLog : List (String × K × List K)

/-- A complete loop over the particles of a container
(`init_out_loop`, `get_next_segment("out")`; Particle_Module.py:914-926). -/
def look (s : CSAP α) : Except Err (CSAP α × List α) := do
  let (s', (n, v)) := s.initOutLoop
  CppProgram.readPieces ((s.arr s.outSel).nseg + 1) s' n v

/-- Loops over all species: the species with their particles. -/
def lookAll : List (Sp K V α) → Except Err (List (Sp K V α × List α))
  | [] => .ok []
  | sp :: sps => do
    let (s', xs) ← look sp.sap
    let r ← lookAll sps
    return ({ sp with sap := s' }, xs) :: r

/-- Push one particle: a NumPy array (source) or a tuple (`create_from_list`). -/
def pushOne (array : Bool) (p : α) (s : CSAP α) : Except Err (CSAP α) := do
  let (sp, _) ← if array then CppProgram.createSource p ⟨true, s⟩ else CppProgram.createList p ⟨true, s⟩
  return sp.sap

/-- Push particles one by one. -/
def pushAll (array : Bool) (ps : List α) (s : CSAP α) : Except Err (CSAP α) :=
  ps.foldlM (fun s p => pushOne array p s) s

/-- Push particles into the container of a species (`self.sap_dict[species_name]`). -/
def pushTo (array : Bool) (name : String) (ps : List α) :
    List (Sp K V α) → Except Err (List (Sp K V α))
  | [] => .error .key
  | sp :: sps =>
    if sp.name = name then do
      let sap' ← pushAll array ps sp.sap
      return { sp with sap := sap' } :: sps
    else do
      let sps' ← pushTo array name ps sps
      return sp :: sps'

/-- A source as used by `add_more_particles` (Particle_Module.py:693-719). -/
def source (s : Src K α σ) : Sources.Source (List (Sp K V α) × σ) K :=
  { name := s.name, interval := s.interval
    fire := fun count time w => do
      let (side', ps) ← s.make count time w.2
      let sps' ← pushTo true s.species ps w.1
      return (sps', side') }

variable [Field K]

/-- One species in `advance_charged_particles_in_E_field` (Particle_Module.py:1399-1405): the compiled
mover, if the species is charged and has particles. -/
def advanceOne [DecidableEq K] (mv : String → Adv σ α) (sp : Sp K V α) (st : σ) :
    Except Err (CSAP α × σ) :=
  if sp.charge = 0 then .ok (sp.sap, st)
  else CppMover.cppStep (fun _ => false) (mv sp.name) sp.sap st

/-- `advance_charged_particles_in_E_field` (Particle_Module.py:1390-1411). -/
def advanceCharged [DecidableEq K] (mv : String → Adv σ α) :
    List (Sp K V α) → σ → Except Err (List (Sp K V α) × σ)
  | [], st => .ok ([], st)
  | sp :: sps, st => do
    let (sap', st') ← advanceOne mv sp st
    let (sps', st'') ← advanceCharged mv sps st'
    return ({ sp with sap := sap' } :: sps', st'')

/-- RUN.1 and RUN.2: the particles are advanced and new ones added. -/
def particles [DecidableEq K] (cfg : Cfg K V α σ φ) (st : State K V α σ φ) :
    Except Err (State K V α σ φ) := do
  let w ← advanceCharged (fun sn => cfg.move sn st.field st.count st.time) st.sps st.side
  let (sps', side') ← Sources.addMore (cfg.sources.map source) st.count st.time w
  return { st with sps := sps', side := side' }

/-- `write_particles_to_file` (Particle_Module.py:3150-3240): nothing if the step has been written. -/
def writeFile (st : State K V α σ φ) : Except Err (State K V α σ φ) :=
  match st.file with
  | none => .error .attribute
  | some f =>
    if st.count = f.last then .ok st
    else do
      let r ← lookAll st.sps
      return { st with
        sps := r.map Prod.fst
        file := some ⟨st.count, f.groups ++ [(st.count, st.time, r.map (fun x => (x.1.index, x.2)))]⟩ }

/-- RUN.3. -/
def writeDue (cfg : Cfg K V α σ φ) (st : State K V α σ φ) : Except Err (State K V α σ φ) := do
  let b ← due cfg.partEvery st.count
  if b then writeFile st else .ok st

/-- `accumulate_number_density` (Particle_Module.py:892-933): the container, the two fields. -/
def accumulate (cfg : Cfg K V α σ φ) (s : CSAP α) (dof cell : List K) :
    Except Err (CSAP α × List K × List K) := do
  let (s', xs) ← look s
  let (d, c) ← xs.foldlM (Fld.accumulateOne cfg.A cfg.SD cfg.SC) (some dof, some cell)
  let c' ← Fld.divideByVolumes cfg.SC cfg.vol cfg.ncell (c.getD [])
  return (s', d.getD [], c')

/-- The loop over species of RUN.4 (as `TimeLoop.accumulateAll`). -/
def accumulateAll (cfg : Cfg K V α σ φ) (every : Option Int) (count : Int) (time : K) :
    List (Sp K V α) → List K → Except Err (List (Sp K V α) × List K × List (String × K × List K))
  | [], v => .ok ([], v, [])
  | sp :: sps, v => do
    let (sap', dof', cell') ← accumulate cfg sp.sap sp.dof sp.cell
    let output ← due every count
    let v' ← Fld.multiplyAdd v dof' (some sp.charge)
    let (sps', v'', log) ← accumulateAll cfg every count time sps v'
    return ({ sp with sap := sap', dof := dof', cell := cell' } :: sps', v'',
      (if output then [(sp.name, time, cell')] else []) ++ log)

/-- RUN.4. -/
def densities (cfg : Cfg K V α σ φ) (every : Option Int) (st : State K V α σ φ) :
    Except Err (State K V α σ φ) := do
  let zeroed := st.sps.map (fun sp =>
    { sp with dof := Fld.setValues sp.dof 0, cell := Fld.setValues sp.cell 0 })
  let (sps', charge', log) ← accumulateAll cfg every st.count st.time zeroed
    (Fld.setValues st.solver.charge 0)
  return { st with sps := sps', solver := { st.solver with charge := charge' }
                   cellLog := st.cellLog ++ log }

/-- `potentialsolve.solve_for_phi(...)` and the electric field it computes. -/
def solveField (cfg : Cfg K V α σ φ) (useCharge : Bool) (st : State K V α σ φ) : State K V α σ φ :=
  let s := Fld.solveForPhi cfg.bc cfg.solve st.solver useCharge cfg.factor
  { st with solver := s, field := cfg.fieldOf s.phi }

/-- `potentialFieldOutputObj.write(phi_F.function, ctrl.time)` if `output`. -/
def writePhi (output : Bool) (st : State K V α σ φ) : State K V α σ φ :=
  if output then { st with phiLog := st.phiLog ++ [(st.time, st.solver.phi)] } else st

/-- RUN.5. -/
def solveDue (cfg : Cfg K V α σ φ) (st : State K V α σ φ) : Except Err (State K V α σ φ) := do
  let b ← due cfg.fieldEvery st.count
  return writePhi b (solveField cfg true st)

/-- `record_history_data` (Particle_Module.py:2821-2864). -/
def recordHist (h : Hist K α) (st : State K V α σ φ) : Except Err (State K V α σ φ) := do
  let r ← lookAll st.sps
  return { st with
    sps := r.map Prod.fst
    hist := some ⟨h.skip, h.rows ++ [(st.count, st.time, r.map (fun x => (x.1.mass, x.2)))]⟩ }

/-- RUN.6. -/
def histDue (st : State K V α σ φ) : Except Err (State K V α σ φ) :=
  match st.hist with
  | none => .ok st
  | some h => do
    let b ← due (some h.skip) st.count
    if b then recordHist h st else .ok st

/-- One round of the time loop (examples/cpp/sphere1D/sphere1D.py:1268-1370). -/
def step [DecidableEq K] (cfg : Cfg K V α σ φ) (st : State K V α σ φ) :
    Except Err (State K V α σ φ) := do
  let st1 ← particles cfg { st with count := st.count + 1, time := st.time + cfg.dt }
  let st2 ← writeDue cfg st1
  let st3 ← densities cfg cfg.cellEvery st2
  let st4 ← solveDue cfg st3
  histDue st4

/-- `for istep in range(ctrl.n_timesteps)`. -/
def steps [DecidableEq K] (cfg : Cfg K V α σ φ) :
    Nat → State K V α σ φ → Except Err (State K V α σ φ)
  | 0, st => .ok st
  | n + 1, st => do
    let st' ← step cfg st
    steps cfg n st'

/-- `initialize_particles`, for given lists of particles. -/
def pushInitial (init : List (String × List α)) (sps : List (Sp K V α)) :
    Except Err (List (Sp K V α)) :=
  init.foldlM (fun sps g => pushTo false g.1 g.2 sps) sps

/-- FIN.1, and the writing at the end of INIT.3: the particles are written if a file has been opened. -/
def finish (st : State K V α σ φ) : Except Err (State K V α σ φ) :=
  if st.file.isSome then writeFile st else .ok st

/-- INIT.2.1: only if there are initial particles. -/
def initParticles (cfg : Cfg K V α σ φ) (init : Option (List (String × List α)))
    (st : State K V α σ φ) : Except Err (State K V α σ φ) :=
  match init with
  | none => .ok st
  | some groups => do
    let sps' ← pushInitial groups st.sps
    let st1 : State K V α σ φ := { st with sps := sps' }
    let st2 ← finish st1
    let st3 ← densities cfg none st2
    return writePhi cfg.fieldEvery.isSome (solveField cfg true st3)

/-- INIT. -/
def setUp (cfg : Cfg K V α σ φ) (init : Option (List (String × List α)))
    (st : State K V α σ φ) : Except Err (State K V α σ φ) := do
  let st1 := writePhi cfg.fieldEvery.isSome (solveField cfg false st)
  let st2 ← initParticles cfg init st1
  match st2.hist with
  | none => .ok st2
  | some h => recordHist h st2

/-- The whole program. -/
def run [DecidableEq K] (cfg : Cfg K V α σ φ) (init : Option (List (String × List α))) (n : Nat)
    (st : State K V α σ φ) : Except Err (State K V α σ φ) := do
  let st0 ← setUp cfg init st
  let st1 ← steps cfg n st0
  finish st1

/-- `advance_charged_species_in_E_field` for the species `sn` (Particle_Module.py:1399-1405 and
cpp/advance_charged_species_in_E_field_cartesian_xy.cpp): the compiled mover with `qmdt = qom*dt` and the
callbacks of that species, as `pyMove`. -/
def cppMove {g p : Nat} {ρ τ : Type} [Field K] [LinearOrder K] (h : g ≤ p) (L : Layout K p)
    (cm : CppMesh K) (bc : String → Int → τ → BCall K g p ρ → Except Err (τ × Part K p ρ))
    (maxCross : Nat) (dt : K) (qom : String → K) (E : String → φ → Part K p ρ → Option (Vec K p)) :
    String → φ → Int → K → Adv ((τ × Vec K p) × Scratch K) (Part K p ρ) := fun sn f _ time =>
  plainAdv (cppMoveCharged h L cm (bc sn) maxCross time dt (qom sn * dt) (E sn f))

end CppLoop
end Dt
