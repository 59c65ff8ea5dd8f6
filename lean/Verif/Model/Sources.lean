import Verif.Model.Traj
import Verif.Model.Species

/-!
# Model of particle creation

`initialize_particles` (Particle_Module.py:451-509), `create_from_list` (597-643),
`add_more_particles` (693-719) and `create_maxwellian_particles` (2897-3082).

Numbers are elements of a field `K` (no rounding).  The random generator is a state `γ` with two
functions drawing one number each: `uni` for `np_m.random.uniform(-1, 1)` and `nrm` for
`np_m.random.normal(0, thermal_speed)`; nothing is assumed about the numbers drawn.

Simplifications
* `number_per_cell` is a natural number and `timestep_interval` an integer.
* The 32-bit field `unique_ID` wraps around (`wrap32`), as NumPy's conversion of a Python int did
  when the code was written; newer NumPy versions raise instead.
* Printing is omitted, also the message about a missing trajectory object.
* The dictionary lookups of the parameters are omitted (all keys are present).
-/

namespace Dt
namespace Sources
open Species (Dict)

/-- A particle record (`particle_dtype`, Particle_Module.py:252-278). -/
structure Rec (K : Type) where
  x : List K
  x0 : List K
  u : List K
  weight : K
  flags : Nat
  cell : Int
  uid : Int
  crossings : Int
  deriving DecidableEq, Repr

/-- `TRAJECTORY_FLAG` (Particle_Module.py:142). -/
def trajFlag : Nat := 0b1 <<< 1

/-- Storing a Python int in an int32 field (Particle_Module.py:265-267). -/
def wrap32 (n : Int) : Int := (n + 2 ^ 31) % 2 ^ 32 - 2 ^ 31

/-- What `CellSet_C` knows of one of its cells (Dolfin_Module.py:1829-1839). -/
structure SrcCell (K : Type) where
  index : Int
  vol : K
  mid : List K
  rad : K

/-- A region: its cells and `in_cell(point, icell)` (Dolfin_Module.py:1766-1865). -/
structure Region (K : Type) where
  cells : List (SrcCell K)
  inCell : List K → Nat → Bool

/-- The parameter dictionary of a source or of an initial distribution. -/
structure Params (K : Type) where
  species : String
  density : K
  perCell : Nat
  drift : List K

/-- A Python argument, as far as the callee can tell them apart. -/
inductive Arg (K : Type) where
  | num (t : K)
  | region (r : Region K)
  | params (p : Params K)
  | field
  | none

/-- The parts of the particle object that do not change during creation.  `fields` evaluates the
solved and the external field at a new trajectory particle (Particle_Module.py:3052-3073) and
`mkPt` builds the point to be recorded from `step`, `time`, a particle record and these fields. -/
structure Env (K γ φ δ : Type) where
  pDim : Nat
  spherical : Bool
  fourPi : K
  uni : γ → K × γ
  nrm : γ → K × γ
  npoints : Nat
  junk : δ
  fields : Rec K → Except Err φ
  mkPt : Arg K → Arg K → Rec K → φ → δ
  /-- bound on the number of trial positions for one particle -/
  fuel : Nat

/-- What creation changes: the run-global counter `Particle_C.UNIQUE_ID_COUNTER`, the storage and
the trajectories of one species, the scratch array `pcoord`, the random generator. -/
structure St (K γ δ : Type) where
  ctr : Nat
  store : SAP (Rec K)
  traj : Option (TrajSp δ)
  pc : List K
  rng : γ

variable {K γ φ δ : Type}

/-- `n` numbers from the generator. -/
def drawN (f : γ → K × γ) : Nat → γ → List K × γ
  | 0, g => ([], g)
  | n + 1, g => ((f g).1 :: (drawN f n (f g).2).1, (drawN f n (f g).2).2)

/-- `for i in range(gDim): pCoord[i] = ...` (Particle_Module.py:2984-2985, 2993-2994). -/
def fillCoord (vals pc : List K) : Except Err (List K) :=
  if vals.length ≤ pc.length then .ok (vals ++ pc.drop vals.length) else .error .index

/-- `create_trajectory` and `record_trajectory_datum` for a new particle
(Particle_Module.py:3041-3078).  The datum is read from the current "out" segment. -/
def startTrajectory (env : Env K γ φ δ) (step time : Arg K) (p : Rec K) (seg full : Int)
    (st : St K γ δ) : Except Err (St K γ δ) :=
  match st.traj with
  | none => .ok st
  | some t => do
    let t1 := t.create env.npoints env.junk full
    let f ← env.fields p
    let q ← st.store.viewGet st.store.getCurrentOutSegment seg
    let t2 ← t1.recordDatum env.npoints full (env.mkPt step time q f)
    return { st with traj := some t2 }

variable [Field K]

/-- `while True: ...` around the trial positions (Particle_Module.py:2989-2998). -/
def trial (env : Env K γ φ δ) (r : Region K) (c : SrcCell K) (icell : Nat) :
    Nat → List K → γ → Except Err (List K × γ)
  | 0, _, _ => .error .fuel
  | n + 1, pc, g => do
    let (vals, g1) := drawN env.uni c.mid.length g
    let pc1 ← fillCoord (List.zipWith (fun m v => m + v * c.rad) c.mid vals) pc
    if r.inCell pc1 icell then return (pc1, g1) else trial env r c icell n pc1 g1

/-- The position of particle `ip` of a cell (Particle_Module.py:2983-2998). -/
def place (env : Env K γ φ δ) (r : Region K) (c : SrcCell K) (icell ip : Nat) (pc : List K) (g : γ) :
    Except Err (List K × γ) :=
  if ip = 0 then (fillCoord c.mid pc).map (fun pc1 => (pc1, g))
  else trial env r c icell env.fuel pc g

/-- `pVel[:] = normal(0, thermalSpeed, pDim) + driftVelocity` (Particle_Module.py:3004), with
NumPy's broadcasting of a one-component drift. -/
def velocity (env : Env K γ φ δ) (drift : List K) (g : γ) : Except Err (List K × γ) :=
  let (v, g1) := drawN env.nrm env.pDim g
  if drift.length = env.pDim then .ok (List.zipWith (· + ·) v drift, g1)
  else match drift with
    | [d] => .ok (v.map (· + d), g1)
    | _ => .error .value

/-- The bit flags of a new particle (Particle_Module.py:2982, 3025-3026). -/
def newFlags (ctr : Nat) : Nat := if ctr = 500 then 0 ||| trajFlag else 0

/-- The body of `for ip in range(numberPerCell)` (Particle_Module.py:2979-3081). -/
def createOne (env : Env K γ φ δ) (step time : Arg K) (r : Region K) (par : Params K) (weight : K)
    (c : SrcCell K) (icell : Nat) (st : St K γ δ) (ip : Nat) : Except Err (St K γ δ) := do
  let (pc, g1) ← place env r c icell ip st.pc st.rng
  let (vel, g2) ← velocity env par.drift g1
  let p : Rec K := { x := pc, x0 := pc, u := vel, weight := weight, flags := newFlags st.ctr,
                     cell := c.index, uid := wrap32 st.ctr, crossings := 0 }
  let (store', (seg, full)) ← st.store.pushBack p
  let st1 : St K γ δ := { ctr := st.ctr + 1, store := store', traj := st.traj, pc := pc, rng := g2 }
  if hasFlag p.flags trajFlag then startTrajectory env step time p seg full st1 else return st1

/-- The weight multiplier (Particle_Module.py:2959-2961). -/
def weightMult [DecidableEq K] (env : Env K γ φ δ) (par : Params K) : Except Err K :=
  if par.perCell = 0 then .error .zerodiv
  else .ok (if env.spherical then par.density / par.perCell / env.fourPi else par.density / par.perCell)

/-- The body of `for icell in range(nCell)` (Particle_Module.py:2964-3081). -/
def createCell (env : Env K γ φ δ) (step time : Arg K) (r : Region K) (par : Params K) (wm : K)
    (st : St K γ δ) (ci : SrcCell K × Nat) : Except Err (St K γ δ) :=
  (List.range par.perCell).foldlM
    (createOne env step time r par (ci.1.vol * wm) ci.1 ci.2) st

/-- `create_maxwellian_particles` (Particle_Module.py:2897-3082) for the storage of the species. -/
def createMaxwellian [DecidableEq K] (env : Env K γ φ δ) (step time : Arg K) (r : Region K)
    (par : Params K) (st : St K γ δ) : Except Err (St K γ δ) := do
  let wm ← weightMult env par
  r.cells.zipIdx.foldlM (createCell env step time r par wm)
    { st with pc := List.replicate env.pDim 0 }

/-! ### Listed particles -/

/-- The body of the loop of `create_from_list` (Particle_Module.py:623-641). -/
def listOne (env : Env K γ φ δ) (list : List (Rec K)) (st : St K γ δ) (i : Nat) :
    Except Err (St K γ δ) := do
  let x ← pyGet list i
  let (store', (_, full)) ← st.store.pushBack x
  let (pseg, off) ← store'.getSegmentAndOffset full
  let p ← pyGet pseg off
  let st1 := { st with store := store' }
  match hasFlag p.flags trajFlag, st.traj with
  | true, some t => return { st1 with traj := some (t.create env.npoints env.junk full) }
  | _, _ => return st1

/-- The user's function listing particles (`p_list_method(type='listed')`): from the counter
`UNIQUE_ID_COUNTER` it computes the number of particles, the list and the new counter. -/
abbrev ListMethod (K : Type) := Nat → Nat × List (Rec K) × Nat

/-- `create_from_list` (Particle_Module.py:597-643); a missing list function is an
AttributeError. -/
def createFromList (env : Env K γ φ δ) (method : Option (ListMethod K)) (st : St K γ δ) :
    Except Err (St K γ δ) :=
  match method with
  | none => .error .attribute
  | some m =>
    let (number, list, ctr') := m st.ctr
    (List.range number).foldlM (listOne env list) { st with ctr := ctr' }

/-! ### All species -/

/-- The particle object: counter, storage and trajectories of every species, scratch array, random
generator. -/
structure World (K γ δ : Type) where
  ctr : Nat
  stores : Dict (SAP (Rec K))
  trajs : Option (Dict (TrajSp δ))
  pc : List K
  rng : γ

/-- The trajectories of a species, if a trajectory object exists.  (The lists of every species are
made by `Trajectory_C.__init__`, RecordedData_Module.py:395-409, so the lookup does not fail.) -/
def World.trajOf (w : World K γ δ) (s : String) : Except Err (Option (TrajSp δ)) :=
  match w.trajs with
  | none => .ok none
  | some d => (d.get s).map some

/-- Run a creation function on the storage of species `s` (`self.sap_dict[species_name]`). -/
def World.on (w : World K γ δ) (s : String) (f : St K γ δ → Except Err (St K γ δ)) :
    Except Err (World K γ δ) := do
  let store ← w.stores.get s
  let t ← w.trajOf s
  let st ← f ⟨w.ctr, store, t, w.pc, w.rng⟩
  return { ctr := st.ctr
           stores := w.stores.put s st.store
           trajs := match w.trajs, st.traj with
             | some d, some t' => some (d.put s t')
             | _, _ => w.trajs
           pc := st.pc
           rng := st.rng }

/-- Calling `create_maxwellian_particles(self, step, time, domain, paramDict, neg_E_field=None,
external_E_field=None)` with positional arguments: too few or too many are a TypeError; a `domain`
that is not a region has no attribute `cell_list` (AttributeError, Particle_Module.py:2937); a
`paramDict` that is not a dictionary cannot be subscripted (TypeError, 2940). -/
def callMaxwellian [DecidableEq K] (env : Env K γ φ δ) (args : List (Arg K)) (w : World K γ δ) :
    Except Err (World K γ δ) :=
  match args with
  | step :: time :: domain :: paramDict :: rest =>
    if rest.length ≤ 2 then
      match domain with
      | .region r =>
        match paramDict with
        | .params par => w.on par.species (createMaxwellian env step time r par)
        | _ => .error .type
      | _ => .error .attribute
    else .error .type
  | _ => .error .type

/-- An entry of `initial_particles_dict`. -/
structure InitEntry (K γ δ : Type) where
  kind : String
  params : Params K
  func : List (Arg K) → World K γ δ → Except Err (World K γ δ)
  region : Region K

/-- The body of the loop of `initialize_particles` (Particle_Module.py:474-494).  The message for
an unknown type uses the undefined name `initial_distribution_type` (NameError). -/
def initEntry (env : Env K γ φ δ) (methods : String → Option (ListMethod K)) (printFlags : List String)
    (negE : Arg K) (w : World K γ δ) (e : InitEntry K γ δ) : Except Err (World K γ δ) :=
  if e.params.species ∈ printFlags then
    if e.kind = "listed" then
      w.on e.params.species (createFromList env (methods e.params.species))
    else if e.kind = "function_over_region" then
      e.func [.num 0, .region e.region, .params e.params, negE] w
    else .error .name
  else .error .key

/-- `initialize_particles` (Particle_Module.py:451-509).  `printFlags` lists the keys of
`print_flags`. -/
def initializeParticles (env : Env K γ φ δ) (methods : String → Option (ListMethod K))
    (printFlags : List String) (negE : Arg K) (entries : List (InitEntry K γ δ)) (w : World K γ δ) :
    Except Err (World K γ δ) :=
  entries.foldlM (initEntry env methods printFlags negE) w

/-- A source: name, `timestep_interval`, and the creation function applied to its region and
parameters (the remaining arguments are `timeloop_count` and `time`). -/
structure Source (σ K : Type) where
  name : String
  interval : Int
  fire : Int → K → σ → Except Err σ

/-- The body of the loop of `add_more_particles` (Particle_Module.py:707-715). -/
def sourceStep {σ : Type} (count : Int) (time : K) (w : σ) (s : Source σ K) : Except Err σ :=
  if s.interval = 0 then .error .zerodiv
  else if count.fmod s.interval = 0 then s.fire count time w
  else .ok w

/-- `add_more_particles` (Particle_Module.py:693-719): the sources in dictionary order. -/
def addMore {σ : Type} (sources : List (Source σ K)) (count : Int) (time : K) (w : σ) :
    Except Err σ :=
  sources.foldlM (sourceStep count time) w

/-- A source using `create_maxwellian_particles` (the call at Particle_Module.py:715). -/
def maxwellianSource [DecidableEq K] (env : Env K γ φ δ) (name : String) (interval : Int)
    (r : Region K) (par : Params K) (negE ext : Arg K) : Source (World K γ δ) K :=
  { name := name, interval := interval
    fire := fun count time w =>
      callMaxwellian env [.num (count : K), .num time, .region r, .params par, negE, ext] w }

end Sources
end Dt
