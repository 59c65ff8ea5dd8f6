import Verif.Model.Traj
import Verif.Model.OutLoop

/-!
# Model of a program that records trajectories

The calls of a program with a trajectory object on several species, in any order: the loops of
tests/unit/test_ParticleTrajectory.py:349-402, examples/random-accel/random-accel.py:236-262 and
examples/sphere1D/sphere1D.py:1192-1401 are sequences of them.

Simplifications
* A species is one record: whether it is charged, its container, its trajectory lists.  The order of
  the species is that of `species_names`; `charged_species` and `neutral_species` are its parts.
* What a mover does to one particle is an argument (see `TrajSp.adv`), one function per call and
  species; it may depend on the fields at that moment.  The values recorded for a particle are
  arguments of the calls, too.
* `other` stands for everything that touches neither containers nor trajectories (solving for the
  field, counting on boundaries); reading a container (densities, output, histories) is `look`.
-/

namespace Dt
namespace TrajLoop
variable {τ α δ T : Type}

/-- One species: `charge != 0`, `sap_dict[s]`, and the trajectory lists of `s`. -/
structure Sp (α δ : Type) where
  charged : Bool
  sap : SAP α
  tr : TrajSp δ

/-- The state: the species, the side state of the movers, `traj_T.last_step`. -/
structure World (τ α δ : Type) where
  sps : List (Sp α δ)
  side : τ
  last : Option Int

/-- `traj_T.npoints`, the contents of a new data array, the tests of the two flags. -/
structure Cfg (α δ : Type) where
  np : Nat
  junk : δ
  isTraj : α → Bool
  isDel : α → Bool

/-- The arguments of a mover call: `ctrl.timeloop_count`, `ctrl.time`, `ctrl.dt`, how points are built
for facet crossings and deletions, and the motion of a particle of species number `k`. -/
structure Motion (τ α δ T : Type) where
  step : Int
  time : T
  dt : T
  mkCross : Int → T → α → δ
  mkFinal : Int → T → α → δ
  core : Nat → τ → α → Except Err (τ × α × List (α × T))

/-- The calls. -/
inductive Op (τ α δ T : Type) where
  /-- `advance_charged_particles_in_E_field` (true) or `advance_neutral_particles` (false) -/
  | advance (charged : Bool) (m : Motion τ α δ T)
  /-- `record_trajectory_data(step, ...)` with the points for charged and neutral particles -/
  | record (step : Int) (mkC mkN : α → δ)
  /-- one particle of `create_from_list` (`none`) or `create_maxwellian_particles` (`some mk`: the
  point recorded at once, from the particle made and the record read back) for species `k` -/
  | create (k : Nat) (p : α) (first : Option (α → α → δ))
  /-- a complete loop over the particles of species `k` -/
  | look (k : Nat)
  | other (f : τ → Except Err τ)

/-- The loop over species of a mover call (Particle_Module.py:1399-1411, 1864-1875), from species
number `k`. -/
def advanceAll [Add T] (c : Cfg α δ) (last : Option Int) (charged : Bool) (m : Motion τ α δ T) :
    Nat → List (Sp α δ) → τ → Except Err (List (Sp α δ) × τ)
  | _, [], st => .ok ([], st)
  | k, sp :: sps, st =>
    if sp.charged = charged then do
      let (sap', (st', t')) ← Mover.meshStep
        (TrajSp.adv c.np last m.step m.time m.dt c.isTraj c.isDel m.mkCross m.mkFinal (m.core k))
        sp.sap (st, sp.tr)
      let (sps', st'') ← advanceAll c last charged m (k + 1) sps st'
      return ({ sp with sap := sap', tr := t' } :: sps', st'')
    else do
      let (sps', st') ← advanceAll c last charged m (k + 1) sps st
      return (sp :: sps', st')

/-- `for sp in traj_T.charged_species` of `record_trajectory_data` (Particle_Module.py:2712-2776);
`true`: the function returned because a data array is full. -/
def recordCharged (np : Nat) (mk : α → δ) : List (Sp α δ) → Except Err (List (Sp α δ) × Bool)
  | [] => .ok ([], false)
  | sp :: sps =>
    if sp.charged then do
      let (t', early) ← Traj.chargedLoop np sp.sap mk sp.tr.idx.length 0 sp.tr
      if early then return ({ sp with tr := t' } :: sps, true)
      else do
        let (sps', early') ← recordCharged np mk sps
        return ({ sp with tr := t' } :: sps', early')
    else do
      let (sps', early') ← recordCharged np mk sps
      return (sp :: sps', early')

/-- `for sp in traj_T.neutral_species` (Particle_Module.py:2778-2811). -/
def recordNeutral (mk : α → δ) : List (Sp α δ) → Except Err (List (Sp α δ))
  | [] => .ok []
  | sp :: sps =>
    if sp.charged then do
      let sps' ← recordNeutral mk sps
      return sp :: sps'
    else do
      let t' ← Traj.neutralLoop sp.sap mk sp.tr.idx.length 0 sp.tr
      let sps' ← recordNeutral mk sps
      return { sp with tr := t' } :: sps'

/-- `record_trajectory_data` (Particle_Module.py:2679-2818). -/
def record (c : Cfg α δ) (step : Int) (mkC mkN : α → δ) (w : World τ α δ) :
    Except Err (World τ α δ) :=
  if some step = w.last then .ok w
  else do
    let (sps1, early) ← recordCharged c.np mkC w.sps
    if early then return { w with sps := sps1 }
    else do
      let sps2 ← recordNeutral mkN sps1
      return { w with sps := sps2, last := some step }

/-- `create_trajectory`, and for a source the first point, for the particle `p` just stored
(Particle_Module.py:631-641, 3041-3078).  `create_from_list` tests the flag of the record read back
by its index; `create_maxwellian_particles` tests the flags it has just made and records from the
current "out" segment. -/
def startTrajectory (c : Cfg α δ) (p : α) (first : Option (α → α → δ)) (seg full : Int)
    (sp : Sp α δ) : Except Err (Sp α δ) :=
  match first with
  | none => do
    let q ← sp.sap.getItem full
    if c.isTraj q then return { sp with tr := sp.tr.create c.np c.junk full } else return sp
  | some mk =>
    if c.isTraj p then do
      let q ← sp.sap.viewGet sp.sap.getCurrentOutSegment seg
      let t ← (sp.tr.create c.np c.junk full).recordDatum c.np full (mk p q)
      return { sp with tr := t }
    else .ok sp

/-- One new particle (Particle_Module.py:623-641, 3033-3078). -/
def createOne (c : Cfg α δ) (p : α) (first : Option (α → α → δ)) (sp : Sp α δ) :
    Except Err (Sp α δ) := do
  let (sap', (seg, full)) ← sp.sap.pushBack p
  startTrajectory c p first seg full { sp with sap := sap' }

/-- A complete read loop over a species. -/
def lookOne (sp : Sp α δ) : Except Err (Sp α δ) := do
  let (sap', _) ← sp.sap.readLoop
  return { sp with sap := sap' }

/-- Do something with species number `k`. -/
def onSpecies (f : Sp α δ → Except Err (Sp α δ)) : Nat → List (Sp α δ) → Except Err (List (Sp α δ))
  | _, [] => .error .key
  | 0, sp :: sps => do
    let sp' ← f sp
    return sp' :: sps
  | k + 1, sp :: sps => do
    let sps' ← onSpecies f k sps
    return sp :: sps'

/-- One call. -/
def exec [Add T] (c : Cfg α δ) (w : World τ α δ) : Op τ α δ T → Except Err (World τ α δ)
  | .advance charged m => do
    let (sps', side') ← advanceAll c w.last charged m 0 w.sps w.side
    return { w with sps := sps', side := side' }
  | .record step mkC mkN => record c step mkC mkN w
  | .create k p first => do
    let sps' ← onSpecies (createOne c p first) k w.sps
    return { w with sps := sps' }
  | .look k => do
    let sps' ← onSpecies lookOne k w.sps
    return { w with sps := sps' }
  | .other f => do
    let side' ← f w.side
    return { w with side := side' }

/-- A program. -/
def run [Add T] (c : Cfg α δ) (w : World τ α δ) (ops : List (Op τ α δ T)) :
    Except Err (World τ α δ) :=
  ops.foldlM (exec c) w

end TrajLoop
end Dt
