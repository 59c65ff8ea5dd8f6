import Verif.Model.Mover
import Verif.Model.Field
import Verif.Model.Species
import Verif.Model.Output
import Verif.Model.Sources

/-!
# Model of a simulation: initialization, time loop and end

`examples/sphere1D/sphere1D.py`, the sections INIT (1150-1265), RUN (1274-1375) and FIN.1
(1387-1393), with `advance_charged_particles_in_E_field` (Particle_Module.py:1390-1411).

Simplifications
* No trajectories (`particle_P.traj_T` is None), no plots, no printing, no pauses; the Python movers.
* The integrator of a species is an argument: what it does to one particle, given the field that the
  last field solve produced (see `Mover.meshPass` for the loop around it).  The scratch arrays of the
  field (see `EField`) are not modelled here.
* A source computes the particles it creates from the step, the time and the side state (random
  numbers, the counter of unique IDs); they are pushed into the container after they have all been
  computed.  The source pushes each particle when it is made, but nothing it computes depends on the
  container as long as there are no trajectories (`create_maxwellian_particles`).  Initial particles
  are given by their lists.
* The finite-element parts (assembly and boundary conditions, the linear solver, the gradient) are
  arguments `bc`, `solve`, `fieldOf`, as in `Fld.solveForPhi`.
* A species is one record instead of entries in several dictionaries.
-/

namespace Dt
namespace TimeLoop
open Output (Writer Attr)
open Species (History HSpecies Quantity)

variable {K V α σ φ : Type}

/-- One species: container, constants, and the fields `dofNumberDensityDict_F[s]`,
`cellNumberDensityDict_F[s]`. -/
structure Sp (K V α : Type) where
  name : String
  sap : SAP α
  charge : K
  mass : K
  index : V
  dof : List K
  cell : List K

/-- A source of particles: its species, `timestep_interval`, and the particles it creates. -/
structure Src (K α σ : Type) where
  name : String
  species : String
  interval : Int
  make : Int → K → σ → Except Err (σ × List α)

/-- The constant parts of a simulation: `ctrl`, the integrators, sources, fields and solver. -/
structure Cfg (K V α σ φ : Type) where
  dt : K
  move : String → φ → Int → K → Adv σ α
  sources : List (Src K α σ)
  attrs : List (Attr α V)
  junk : V
  partEvery : Option Int
  cellEvery : Option Int
  fieldEvery : Option Int
  quantities : List Quantity
  vel : List (α → K)
  A : Fld.Attrs K α
  SD : Fld.Space K α
  SC : Fld.Space K α
  vol : Nat → K
  ncell : Nat
  bc : List K → List K
  solve : List K → List K
  factor : Option K
  fieldOf : List K → φ

/-- What changes: `ctrl.timeloop_count`, `ctrl.time`, the species, the side state of the movers and
sources, the field, the solver with `assembledCharge_F`, the particle file (if
`ctrl.particle_output_file` is given), the histories (if any), and what has been written to the files
of the potential and of the cell densities. -/
structure State (K V α σ φ : Type) where
  count : Int
  time : K
  sps : List (Sp K V α)
  side : σ
  field : φ
  solver : Fld.SolveSt K
  writer : Option (Writer V K)
  hist : Option (History K)
  phiLog : List (K × List K)
  cellLog : List (String × K × List K)

/-- `interval is not None` and `count % interval == 0`. -/
def due (interval : Option Int) (count : Int) : Except Err Bool :=
  match interval with
  | none => .ok false
  | some k => if k = 0 then .error .zerodiv else .ok (decide (count.fmod k = 0))

/-- Give the containers back to the species. -/
def putSaps (sps : List (Sp K V α)) (saps : List (SAP α)) : List (Sp K V α) :=
  List.zipWith (fun sp s => { sp with sap := s }) sps saps

variable [Field K]

/-- One species in `advance_charged_particles_in_E_field`: the charged species are those with charge
not 0 (Particle_Module.py:285-306). -/
def advanceOne [DecidableEq K] (mv : String → Adv σ α) (sp : Sp K V α) (st : σ) :
    Except Err (SAP α × σ) :=
  if sp.charge = 0 then .ok (sp.sap, st) else Mover.meshStep (mv sp.name) sp.sap st

/-- `advance_charged_particles_in_E_field` (Particle_Module.py:1390-1411), Python movers; in the order
of all species. -/
def advanceCharged [DecidableEq K] (mv : String → Adv σ α) :
    List (Sp K V α) → σ → Except Err (List (Sp K V α) × σ)
  | [], st => .ok ([], st)
  | sp :: sps, st => do
    let (sap', st') ← advanceOne mv sp st
    let (sps', st'') ← advanceCharged mv sps st'
    return ({ sp with sap := sap' } :: sps', st'')

/-- Push particles into the container of a species (`self.sap_dict[species_name]`). -/
def pushTo (name : String) (ps : List α) : List (Sp K V α) → Except Err (List (Sp K V α))
  | [] => .error .key
  | sp :: sps =>
    if sp.name = name then do
      let (sap', _) ← sp.sap.pushAll ps
      return { sp with sap := sap' } :: sps
    else do
      let sps' ← pushTo name ps sps
      return sp :: sps'

/-- A source as used by `add_more_particles`. -/
def Src.source (s : Src K α σ) : Sources.Source (List (Sp K V α) × σ) K :=
  { name := s.name, interval := s.interval
    fire := fun count time w => do
      let (side', ps) ← s.make count time w.2
      let sps' ← pushTo s.species ps w.1
      return (sps', side') }

/-- `write_particles_to_file(ctrl, close_flag)`; without a file `create_group` is called on None. -/
def writeFile (cfg : Cfg K V α σ φ) (close : Bool) (st : State K V α σ φ) :
    Except Err (State K V α σ φ) :=
  match st.writer with
  | none => .error .attribute
  | some w =>
    match Output.write cfg.attrs cfg.junk w (st.sps.map (fun sp => ⟨sp.sap, sp.index⟩))
        st.count st.time close with
    | (w', sps', none) =>
      .ok { st with writer := some w', sps := putSaps st.sps (sps'.map (·.sap)) }
    | (_, _, some e) => .error e

/-- The loop over species of sphere1D.py:1318-1332 (1220-1225 without the cell-density output): the
species, the charge field, and the cell densities written. -/
def accumulateAll (cfg : Cfg K V α σ φ) (every : Option Int) (count : Int) (time : K) :
    List (Sp K V α) → List K → Except Err (List (Sp K V α) × List K × List (String × K × List K))
  | [], v => .ok ([], v, [])
  | sp :: sps, v => do
    let (sap', (d, c)) ← Fld.accumulate cfg.A cfg.SD cfg.SC cfg.vol cfg.ncell sp.sap (some sp.dof)
      (some sp.cell)
    let dof' := d.getD []
    let cell' := c.getD []
    let output ← due every count
    let v' ← Fld.multiplyAdd v dof' (some sp.charge)
    let (sps', v'', log) ← accumulateAll cfg every count time sps v'
    return ({ sp with sap := sap', dof := dof', cell := cell' } :: sps', v'',
      (if output then [(sp.name, time, cell')] else []) ++ log)

/-- RUN.4 (sphere1D.py:1310-1332): zero the fields, accumulate, write cell densities if due. -/
def densities (cfg : Cfg K V α σ φ) (every : Option Int) (st : State K V α σ φ) :
    Except Err (State K V α σ φ) := do
  let zeroed := st.sps.map (fun sp =>
    { sp with dof := Fld.setValues sp.dof 0, cell := Fld.setValues sp.cell 0 })
  let (sps', charge', log) ← accumulateAll cfg every st.count st.time zeroed
    (Fld.setValues st.solver.charge 0)
  return { st with sps := sps', solver := { st.solver with charge := charge' }
                   cellLog := st.cellLog ++ log }

/-- `potentialsolve.solve_for_phi(...)` and the electric field it computes. -/
def solveField (cfg : Cfg K V α σ φ) (useCharge : Bool) (st : State K V α σ φ) : State K V α σ φ :=
  let s := Fld.solveForPhi cfg.bc cfg.solve st.solver useCharge cfg.factor
  { st with solver := s, field := cfg.fieldOf s.phi }

/-- `potentialFieldOutputObj.write(phi_F.function, ctrl.time)` if `output`. -/
def writePhi (output : Bool) (st : State K V α σ φ) : State K V α σ φ :=
  if output then { st with phiLog := st.phiLog ++ [(st.time, st.solver.phi)] } else st

/-- `record_history_data(ctrl.timeloop_count, ctrl.time)` if there are histories. -/
def recordHist [LinearOrder K] (cfg : Cfg K V α σ φ) (h : History K) (st : State K V α σ φ) :
    Except Err (State K V α σ φ) := do
  let (h', sps') ← Species.recordHistory cfg.A.weight cfg.vel cfg.quantities h
    (st.sps.map (fun sp => ⟨sp.sap, sp.mass⟩)) st.count st.time
  return { st with hist := some h', sps := putSaps st.sps (sps'.map (·.sap)) }

/-- RUN.6 (sphere1D.py:1365-1368). -/
def histDue [LinearOrder K] (cfg : Cfg K V α σ φ) (st : State K V α σ φ) :
    Except Err (State K V α σ φ) :=
  match st.hist with
  | none => .ok st
  | some h => do
    let b ← due (some h.skip) st.count
    if b then recordHist cfg h st else .ok st

/-- RUN.1 and RUN.2 (sphere1D.py:1283-1298): the particles are advanced and new ones added. -/
def particles [DecidableEq K] (cfg : Cfg K V α σ φ) (st : State K V α σ φ) :
    Except Err (State K V α σ φ) := do
  let w ← advanceCharged (fun sn => cfg.move sn st.field st.count st.time) st.sps st.side
  let (sps', side') ← Sources.addMore (cfg.sources.map Src.source) st.count st.time w
  return { st with sps := sps', side := side' }

/-- RUN.3 (sphere1D.py:1300-1303). -/
def writeDue (cfg : Cfg K V α σ φ) (st : State K V α σ φ) : Except Err (State K V α σ φ) := do
  let b ← due cfg.partEvery st.count
  if b then writeFile cfg false st else .ok st

/-- RUN.5 (sphere1D.py:1337-1363). -/
def solveDue (cfg : Cfg K V α σ φ) (st : State K V α σ φ) : Except Err (State K V α σ φ) := do
  let b ← due cfg.fieldEvery st.count
  return writePhi b (solveField cfg true st)

/-- One round of the time loop (sphere1D.py:1274-1375). -/
def step [LinearOrder K] (cfg : Cfg K V α σ φ) (st : State K V α σ φ) :
    Except Err (State K V α σ φ) := do
  let st1 ← particles cfg { st with count := st.count + 1, time := st.time + cfg.dt }
  let st2 ← writeDue cfg st1
  let st3 ← densities cfg cfg.cellEvery st2
  let st4 ← solveDue cfg st3
  histDue cfg st4

/-- `for istep in range(ctrl.n_timesteps)`. -/
def steps [LinearOrder K] (cfg : Cfg K V α σ φ) : Nat → State K V α σ φ → Except Err (State K V α σ φ)
  | 0, st => .ok st
  | n + 1, st => do
    let st' ← step cfg st
    steps cfg n st'

/-- `initialize_particles`, for given lists of particles. -/
def pushInitial (init : List (String × List α)) (sps : List (Sp K V α)) :
    Except Err (List (Sp K V α)) :=
  init.foldlM (fun sps g => pushTo g.1 g.2 sps) sps

/-- `write_particles_to_file(ctrl)` if there is a file (sphere1D.py:1199-1201). -/
def writeInitial (cfg : Cfg K V α σ φ) (st : State K V α σ φ) : Except Err (State K V α σ φ) :=
  if st.writer.isSome then writeFile cfg false st else .ok st

/-- INIT.2.1 (sphere1D.py:1192-1246): only if there are initial particles. -/
def initParticles (cfg : Cfg K V α σ φ) (init : Option (List (String × List α)))
    (st : State K V α σ φ) : Except Err (State K V α σ φ) :=
  match init with
  | none => .ok st
  | some groups => do
    let sps' ← pushInitial groups st.sps
    let st2 ← writeInitial cfg { st with sps := sps' }
    let st3 ← densities cfg none st2
    return writePhi cfg.fieldEvery.isSome (solveField cfg true st3)

/-- INIT (sphere1D.py:1158-1258). -/
def setUp [LinearOrder K] (cfg : Cfg K V α σ φ) (init : Option (List (String × List α)))
    (st : State K V α σ φ) : Except Err (State K V α σ φ) := do
  let st1 := writePhi cfg.fieldEvery.isSome (solveField cfg false st)
  let st2 ← initParticles cfg init st1
  match st2.hist with
  | none => .ok st2
  | some h => recordHist cfg h st2

/-- FIN.1 (sphere1D.py:1387-1393). -/
def finish (cfg : Cfg K V α σ φ) (st : State K V α σ φ) : Except Err (State K V α σ φ) :=
  if st.writer.isSome then writeFile cfg true st else .ok st

/-- The whole program. -/
def run [LinearOrder K] (cfg : Cfg K V α σ φ) (init : Option (List (String × List α))) (n : Nat)
    (st : State K V α σ φ) : Except Err (State K V α σ φ) := do
  let st0 ← setUp cfg init st
  let st1 ← steps cfg n st0
  finish cfg st1

end TimeLoop
end Dt
