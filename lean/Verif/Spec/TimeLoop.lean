import Verif.Model.TimeLoop
import Verif.Spec.ListMachine
import Verif.Spec.Pass
import Verif.Spec.Field

/-!
# Specification of a simulation on plain lists of particles

Every species is a list of particles with the flag `stale` of the list machine (`Spec.LState`), which
says when an append raises.  There are no containers, no output buffers, no running density fields:
the charge on the mesh is the sum over all particles.
-/

namespace Dt.Spec
open TimeLoop (Cfg Src)
variable {K V α σ φ : Type}

/-- Why a simulation ends early: an exception; or it leaves the scope of the specification because a
species lost all its particles in one step (see C14), or because a particle is stored that the fields
cannot be evaluated at. -/
inductive Fault where
  | raises (e : Err)
  | allLost
  | offMesh
  deriving DecidableEq, Repr

/-- A species: constants and population. -/
structure Pop (K V α : Type) where
  name : String
  charge : K
  mass : K
  index : V
  st : LState α

/-- The state of a simulation after a step: step number, time, populations, side state of movers and
sources, and the potential solved from the charge of these populations. -/
structure Ideal (K V α σ : Type) where
  count : Int
  time : K
  pops : List (Pop K V α)
  side : σ
  phi : List K

/-- Append particles one by one. -/
def LState.appendAll (sl : Nat) : LState α → List α → Except Fault (LState α)
  | st, [] => .ok st
  | st, x :: xs =>
    if st.stale = true ∧ st.items ≠ [] ∧ st.items.length % sl = 0 then .error (.raises .assertion)
    else LState.appendAll sl ⟨st.items ++ [x], st.stale⟩ xs

/-- Every particle of a charged species is moved; the survivors stay, in order. -/
def movePop [Field K] [DecidableEq K] (sl : Nat) (mv : String → Adv σ α) (p : Pop K V α) (side : σ) :
    Except Fault (Pop K V α × σ) :=
  if p.charge = 0 ∨ p.st.items = [] then .ok (p, side)
  else
    match pass (mv p.name) side 0 0 p.st.items with
    | .error e => .error (.raises e)
    | .ok (_, []) => .error .allLost
    | .ok (side', y :: ys) =>
      .ok ({ p with st := ⟨y :: ys, decide ((y :: ys).length % sl = 0 ∧
        lastFlag (mv p.name) side 0 0 p.st.items = some false)⟩ }, side')

/-- All species in order. -/
def moveAll [Field K] [DecidableEq K] (sl : Nat) (mv : String → Adv σ α) :
    List (Pop K V α) → σ → Except Fault (List (Pop K V α) × σ)
  | [], side => .ok ([], side)
  | p :: ps, side =>
    match movePop sl mv p side with
    | .error f => .error f
    | .ok (p', side') =>
      match moveAll sl mv ps side' with
      | .error f => .error f
      | .ok (ps', side'') => .ok (p' :: ps', side'')

/-- New particles go to the end of the population of the species of that name. -/
def appendTo (sl : Nat) (name : String) (xs : List α) :
    List (Pop K V α) → Except Fault (List (Pop K V α))
  | [] => .error (.raises .key)
  | p :: ps =>
    if p.name = name then
      match p.st.appendAll sl xs with
      | .error f => .error f
      | .ok st => .ok ({ p with st := st } :: ps)
    else
      match appendTo sl name xs ps with
      | .error f => .error f
      | .ok ps' => .ok (p :: ps')

/-- The sources act in order, each at the steps its interval divides. -/
def createAll (sl : Nat) (count : Int) (time : K) :
    List (Src K α σ) → List (Pop K V α) → σ → Except Fault (List (Pop K V α) × σ)
  | [], ps, side => .ok (ps, side)
  | s :: ss, ps, side =>
    if s.interval = 0 then .error (.raises .zerodiv)
    else if count.fmod s.interval = 0 then
      match s.make count time side with
      | .error e => .error (.raises e)
      | .ok (side', xs) =>
        match appendTo sl s.species xs ps with
        | .error f => .error f
        | .ok ps' => createAll sl count time ss ps' side'
    else createAll sl count time ss ps side

/-- Particles appended in groups. -/
def appendGroups (sl : Nat) : List (String × List α) → List (Pop K V α) →
    Except Fault (List (Pop K V α))
  | [], ps => .ok ps
  | g :: gs, ps =>
    match appendTo sl g.1 g.2 ps with
    | .error f => .error f
    | .ok ps' => appendGroups sl gs ps'

/-- The charge at DOF `j`: the sum over all particles of charge times weight times basis function. -/
def chargeAt [Field K] (cfg : Cfg K V α σ φ) (pops : List (Pop K V α)) (j : Nat) : K :=
  (pops.map (fun p => p.charge * (p.st.items.map (contrib cfg.A cfg.SD j)).sum)).sum

/-- The potential for the charge of the populations, on a mesh with `D` DOFs. -/
def potential [Field K] (cfg : Cfg K V α σ φ) (D : Nat) (pops : List (Pop K V α)) : List K :=
  cfg.solve (cfg.bc ((List.range D).map (fun j => chargeAt cfg pops j * cfg.factor.getD 1)))

/-- The particles are looked at once per step. -/
def looked (p : Pop K V α) : Pop K V α := { p with st := ⟨p.st.items, decide (p.st.items ≠ [])⟩ }

/-- The state after the particles `pops` have been determined. -/
def settle [Field K] (cfg : Cfg K V α σ φ) (D : Nat) (onMesh : α → Bool) (count : Int) (time : K)
    (pops : List (Pop K V α)) (side : σ) : Except Fault (Ideal K V α σ) :=
  if pops.all (fun p => p.st.items.all onMesh) then
    .ok ⟨count, time, pops.map looked, side, potential cfg D pops⟩
  else .error .offMesh

/-- One time step. -/
def Ideal.step [Field K] [DecidableEq K] (cfg : Cfg K V α σ φ) (sl D : Nat) (onMesh : α → Bool)
    (i : Ideal K V α σ) : Except Fault (Ideal K V α σ) :=
  let count := i.count + 1
  let time := i.time + cfg.dt
  match moveAll sl (fun sn => cfg.move sn (cfg.fieldOf i.phi) count time) i.pops i.side with
  | .error f => .error f
  | .ok (ps, side) =>
    match createAll sl count time cfg.sources ps side with
    | .error f => .error f
    | .ok (ps', side') => settle cfg D onMesh count time ps' side'

/-- The states after each of `n` further steps. -/
def Ideal.steps [Field K] [DecidableEq K] (cfg : Cfg K V α σ φ) (sl D : Nat) (onMesh : α → Bool) :
    Nat → Ideal K V α σ → Except Fault (List (Ideal K V α σ))
  | 0, _ => .ok []
  | n + 1, i =>
    match i.step cfg sl D onMesh with
    | .error f => .error f
    | .ok i' =>
      match Ideal.steps cfg sl D onMesh n i' with
      | .error f => .error f
      | .ok is => .ok (i' :: is)

/-- The state before the first step: without initial particles the potential is solved from the
right-hand side `b` present at the start, with them from their charge. -/
def Ideal.start [Field K] (cfg : Cfg K V α σ φ) (sl D : Nat) (onMesh : α → Bool)
    (init : Option (List (String × List α))) (b : List K) (i : Ideal K V α σ) :
    Except Fault (Ideal K V α σ) :=
  match init with
  | none => .ok { i with phi := cfg.solve b }
  | some groups =>
    match appendGroups sl groups i.pops with
    | .error f => .error f
    | .ok ps => settle cfg D onMesh i.count i.time ps i.side

/-- The states of a whole simulation: the first, and those after each step. -/
def Ideal.run [Field K] [DecidableEq K] (cfg : Cfg K V α σ φ) (sl D : Nat) (onMesh : α → Bool)
    (init : Option (List (String × List α))) (b : List K) (n : Nat) (i : Ideal K V α σ) :
    Except Fault (Ideal K V α σ × List (Ideal K V α σ)) :=
  match i.start cfg sl D onMesh init b with
  | .error f => .error f
  | .ok i0 =>
    match Ideal.steps cfg sl D onMesh n i0 with
    | .error f => .error f
    | .ok is => .ok (i0, is)

/-- Whether something with the given interval is due at a step. -/
def isDue (every : Option Int) (count : Int) : Bool :=
  match every with
  | none => false
  | some k => decide (count.fmod k = 0)

/-- The states at which something with the given interval is due. -/
def dueStates (every : Option Int) (is : List (Ideal K V α σ)) : List (Ideal K V α σ) :=
  is.filter (fun i => isDue every i.count)

/-- The last state of a simulation. -/
def lastOf (i0 : Ideal K V α σ) (is : List (Ideal K V α σ)) : Ideal K V α σ := is.getLast?.getD i0

/-- Whether the last state is written to the particle file before the end of the program: at step 0 if
there are initial particles, later if the interval divides the step. -/
def wroteLast (every : Option Int) (init : Bool) (i0 : Ideal K V α σ) (is : List (Ideal K V α σ)) :
    Bool :=
  if is.isEmpty then init else isDue every (lastOf i0 is).count

/-- The states whose particles are in the particle file after the program has ended. -/
def filedStates (every : Option Int) (init : Bool) (i0 : Ideal K V α σ) (is : List (Ideal K V α σ)) :
    List (Ideal K V α σ) :=
  (if init then [i0] else []) ++ dueStates every is ++
    (if wroteLast every init i0 is then [] else [lastOf i0 is])

/-- The particles of a state with the numbers of their species, as written to the particle file. -/
def Ideal.filed (i : Ideal K V α σ) : List (V × List α) := i.pops.map (fun p => (p.index, p.st.items))

/-- The masses and particles of a state, as they enter the histories. -/
def Ideal.massed (i : Ideal K V α σ) : List (K × List α) := i.pops.map (fun p => (p.mass, p.st.items))

/-- An entry (species, time, values) of the cell-density file for the population `p`: the value of the
DOF of cell `k` is the number of physical particles in the cell divided by its volume. -/
def DensityOf [Field K] (cfg : Cfg K V α σ φ) (d : Nat → Nat) (C : Nat) (tp : K × Pop K V α)
    (e : String × K × List K) : Prop :=
  e.1 = tp.2.name ∧ e.2.1 = tp.1 ∧ e.2.2.length = C ∧
    ∀ k < cfg.ncell, e.2.2.getD (d k) 0 =
      ((tp.2.st.items.filter (fun p => cfg.A.cell p = k)).map cfg.A.weight).sum / cfg.vol k

/-- The particles the sources create for the species `name` at a step, in order. -/
def created (name : String) (count : Int) (time : K) : List (Src K α σ) → σ → List α
  | [], _ => []
  | s :: ss, side =>
    if count.fmod s.interval = 0 then
      match s.make count time side with
      | .error _ => []
      | .ok (side', xs) => (if s.species = name then xs else []) ++ created name count time ss side'
    else created name count time ss side

/-- The particles created for the species `name` in the step that follows the state `i`. -/
def Ideal.made [Field K] [DecidableEq K] (cfg : Cfg K V α σ φ) (sl : Nat) (name : String)
    (i : Ideal K V α σ) : List α :=
  match moveAll sl (fun sn => cfg.move sn (cfg.fieldOf i.phi) (i.count + 1) (i.time + cfg.dt))
      i.pops i.side with
  | .error _ => []
  | .ok (_, side) => created name (i.count + 1) (i.time + cfg.dt) cfg.sources side

/-- The total charge of the particles. -/
def totalCharge [Field K] (weight : α → K) (pops : List (Pop K V α)) : K :=
  (pops.map (fun p => p.charge * (p.st.items.map weight).sum)).sum

end Dt.Spec
