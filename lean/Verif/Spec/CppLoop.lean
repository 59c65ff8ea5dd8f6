import Verif.Spec.TimeLoop
import Verif.Spec.CppPass

/-!
# Specification of a simulation with compiled movers and containers on plain lists of particles

As `Spec.TimeLoop`.  Differences: losing all particles is harmless; only particles pushed by sources
can find a stale position (the process aborts), initial particles cannot; no species has `2^32`
particles or more (the indices of the movers are 32-bit numbers).
-/

namespace Dt.Spec.Comp
open TimeLoop (Cfg Src)
open Spec (LState Pop Ideal)
variable {K V α σ φ : Type}

/-- Why a simulation ends early: an exception or abort; or it leaves the scope of the specification
because a particle is stored that the fields cannot be evaluated at, or because there are too many
particles. -/
inductive Fault where
  | raises (e : Err)
  | offMesh
  | huge
  deriving DecidableEq, Repr

/-- Append particles one by one; `array`: they come from a source. -/
def appendAll (array : Bool) (sl : Nat) : LState α → List α → Except Fault (LState α)
  | st, [] => .ok st
  | st, x :: xs =>
    if array = true ∧ st.stale = true ∧ st.items ≠ [] ∧ st.items.length % sl = 0 then
      .error (.raises .abort)
    else appendAll array sl ⟨st.items ++ [x], st.stale⟩ xs

/-- Every particle of a charged species is moved; the survivors stay, in order. -/
def movePop [Field K] [DecidableEq K] (sl : Nat) (mv : String → Adv σ α) (p : Pop K V α) (side : σ) :
    Except Fault (Pop K V α × σ) :=
  if p.charge = 0 ∨ p.st.items = [] then .ok (p, side)
  else if 4294967296 ≤ p.st.items.length then .error .huge
  else
    match pass (mv p.name) side 0 0 p.st.items with
    | .error e => .error (.raises e)
    | .ok (side', ys) =>
      .ok ({ p with st := ⟨ys, decide (ys ≠ [] ∧ ys.length % sl = 0 ∧
        lastFlag (mv p.name) side 0 0 p.st.items = some false)⟩ }, side')

/-- All species in order. -/
def moveAll [Field K] [DecidableEq K] (sl : Nat) (mv : String → Adv σ α) :
    List (Pop K V α) → σ → Except Fault (List (Pop K V α) × σ)
  | [], side => .ok ([], side)
  | p :: ps, side =>
    match movePop sl mv p side with
    | .error f => .error f
    | .ok (p', side') =>
      match moveAll sl mv ps side' with
      | .error f => .error f
      | .ok (ps', side'') => .ok (p' :: ps', side'')

/-- New particles go to the end of the population of the species of that name. -/
def appendTo (array : Bool) (sl : Nat) (name : String) (xs : List α) :
    List (Pop K V α) → Except Fault (List (Pop K V α))
  | [] => .error (.raises .key)
  | p :: ps =>
    if p.name = name then
      match appendAll array sl p.st xs with
      | .error f => .error f
      | .ok st => .ok ({ p with st := st } :: ps)
    else
      match appendTo array sl name xs ps with
      | .error f => .error f
      | .ok ps' => .ok (p :: ps')

/-- The sources act in order, each at the steps its interval divides. -/
def createAll (sl : Nat) (count : Int) (time : K) :
    List (Src K α σ) → List (Pop K V α) → σ → Except Fault (List (Pop K V α) × σ)
  | [], ps, side => .ok (ps, side)
  | s :: ss, ps, side =>
    if s.interval = 0 then .error (.raises .zerodiv)
    else if count.fmod s.interval = 0 then
      match s.make count time side with
      | .error e => .error (.raises e)
      | .ok (side', xs) =>
        match appendTo true sl s.species xs ps with
        | .error f => .error f
        | .ok ps' => createAll sl count time ss ps' side'
    else createAll sl count time ss ps side

/-- Initial particles, in groups. -/
def appendGroups (sl : Nat) : List (String × List α) → List (Pop K V α) →
    Except Fault (List (Pop K V α))
  | [], ps => .ok ps
  | g :: gs, ps =>
    match appendTo false sl g.1 g.2 ps with
    | .error f => .error f
    | .ok ps' => appendGroups sl gs ps'

/-- The state after the particles `pops` have been determined. -/
def settle [Field K] (cfg : Cfg K V α σ φ) (D : Nat) (onMesh : α → Bool) (count : Int) (time : K)
    (pops : List (Pop K V α)) (side : σ) : Except Fault (Ideal K V α σ) :=
  if pops.all (fun p => p.st.items.all onMesh) then
    .ok ⟨count, time, pops.map looked, side, potential cfg D pops⟩
  else .error .offMesh

/-- One time step. -/
def step [Field K] [DecidableEq K] (cfg : Cfg K V α σ φ) (sl D : Nat) (onMesh : α → Bool)
    (i : Ideal K V α σ) : Except Fault (Ideal K V α σ) :=
  let count := i.count + 1
  let time := i.time + cfg.dt
  match moveAll sl (fun sn => cfg.move sn (cfg.fieldOf i.phi) count time) i.pops i.side with
  | .error f => .error f
  | .ok (ps, side) =>
    match createAll sl count time cfg.sources ps side with
    | .error f => .error f
    | .ok (ps', side') => settle cfg D onMesh count time ps' side'

/-- The states after each of `n` further steps. -/
def steps [Field K] [DecidableEq K] (cfg : Cfg K V α σ φ) (sl D : Nat) (onMesh : α → Bool) :
    Nat → Ideal K V α σ → Except Fault (List (Ideal K V α σ))
  | 0, _ => .ok []
  | n + 1, i =>
    match step cfg sl D onMesh i with
    | .error f => .error f
    | .ok i' =>
      match steps cfg sl D onMesh n i' with
      | .error f => .error f
      | .ok is => .ok (i' :: is)

/-- The state before the first step. -/
def start [Field K] (cfg : Cfg K V α σ φ) (sl D : Nat) (onMesh : α → Bool)
    (init : Option (List (String × List α))) (b : List K) (i : Ideal K V α σ) :
    Except Fault (Ideal K V α σ) :=
  match init with
  | none => .ok { i with phi := cfg.solve b }
  | some groups =>
    match appendGroups sl groups i.pops with
    | .error f => .error f
    | .ok ps => settle cfg D onMesh i.count i.time ps i.side

/-- The states of a whole simulation: the first, and those after each step. -/
def run [Field K] [DecidableEq K] (cfg : Cfg K V α σ φ) (sl D : Nat) (onMesh : α → Bool)
    (init : Option (List (String × List α))) (b : List K) (n : Nat) (i : Ideal K V α σ) :
    Except Fault (Ideal K V α σ × List (Ideal K V α σ)) :=
  match start cfg sl D onMesh init b i with
  | .error f => .error f
  | .ok i0 =>
    match steps cfg sl D onMesh n i0 with
    | .error f => .error f
    | .ok is => .ok (i0, is)

end Dt.Spec.Comp
