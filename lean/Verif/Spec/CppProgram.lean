import Verif.Model.CppProgram
import Verif.Spec.Pass
import Verif.Spec.CppPass

/-!
# Specification: the same program on plain lists of particles
-/

namespace Dt.Spec.Prog
open CppProgram (Op Obs)
variable {σ α : Type}

/-- A species on paper: whether it is charged, its particles, and `ahead`: whether the storage position
of the container has run ahead of its last particle (only sources notice). -/
structure LSp (α : Type) where
  charged : Bool
  xs : List α
  ahead : Bool

/-- A mover call: one pass over the list of every species of the kind that has particles. -/
def advanceAll (sl : Nat) (isDel : α → Bool) (charged : Bool) (core : Nat → Adv σ α) :
    Nat → List (LSp α) → σ → Except Err (List (LSp α) × σ)
  | _, [], st => .ok ([], st)
  | k, sp :: sps, st =>
    if sp.charged = charged ∧ sp.xs ≠ [] then
      let skip := if charged then fun _ => false else isDel
      match pass (skipping skip (core k)) st 0 0 sp.xs with
      | .error e => .error e
      | .ok (st', ys) =>
        match advanceAll sl isDel charged core (k + 1) sps st' with
        | .error e => .error e
        | .ok (sps', st'') =>
          .ok (⟨sp.charged, ys, decide (ys ≠ [] ∧ ys.length % sl = 0 ∧
            lastMoved skip (core k) st 0 0 sp.xs = some false)⟩ :: sps', st'')
    else
      match advanceAll sl isDel charged core (k + 1) sps st with
      | .error e => .error e
      | .ok (sps', st') => .ok (sp :: sps', st')

/-- A new particle goes to the end. -/
def append (sl : Nat) (p : α) (sp : LSp α) : LSp α × Obs α :=
  ({ sp with xs := sp.xs ++ [p] }, .created ((sp.xs.length % sl : Nat)) sp.xs.length p)

/-- The storage of a species is full. -/
def full (sl : Nat) (sp : LSp α) : Bool := decide (sp.xs ≠ [] ∧ sp.xs.length % sl = 0)

/-- Replace species number `k`. -/
def onSpecies (f : LSp α → Except Err (LSp α × Obs α)) :
    Nat → List (LSp α) → Except Err (List (LSp α) × Obs α)
  | _, [] => .error .key
  | 0, sp :: sps =>
    match f sp with
    | .error e => .error e
    | .ok (sp', o) => .ok (sp' :: sps, o)
  | k + 1, sp :: sps =>
    match onSpecies f k sps with
    | .error e => .error e
    | .ok (sps', o) => .ok (sp :: sps', o)

/-- One call. -/
def exec (sl : Nat) (isDel : α → Bool) (w : List (LSp α) × σ) : Op σ α →
    Except Err ((List (LSp α) × σ) × List (Obs α))
  | .advance charged core => do
    let w' ← advanceAll sl isDel charged core 0 w.1 w.2
    return (w', [])
  | .createList k p => do
    let (sps', o) ← onSpecies (fun sp => .ok (append sl p sp)) k w.1
    return ((sps', w.2), [o])
  | .createSource k p => do
    let (sps', o) ← onSpecies (fun sp =>
      if full sl sp && sp.ahead then .error .abort else .ok (append sl p sp)) k w.1
    return ((sps', w.2), [o])
  | .look k => do
    let (sps', o) ← onSpecies (fun sp =>
      .ok ({ sp with ahead := !sp.xs.isEmpty }, .items sp.xs)) k w.1
    return ((sps', w.2), [o])
  | .other f => do
    let st' ← f w.2
    return ((w.1, st'), [])

/-- A program. -/
def run (sl : Nat) (isDel : α → Bool) : List (Op σ α) → List (LSp α) × σ →
    Except Err ((List (LSp α) × σ) × List (Obs α))
  | [], w => .ok (w, [])
  | op :: ops, w => do
    let (w', os) ← exec sl isDel w op
    let (w'', os') ← run sl isDel ops w'
    return (w'', os ++ os')

/-! ### The same without the storage position -/

/-- A mover call on plain lists. -/
def plainAdvance (isDel : α → Bool) (charged : Bool) (core : Nat → Adv σ α) :
    Nat → List (Bool × List α) → σ → Except Err (List (Bool × List α) × σ)
  | _, [], st => .ok ([], st)
  | k, (c, xs) :: sps, st => do
    let (ys, st') ← if c = charged then
        (pass (skipping (if charged then fun _ => false else isDel) (core k)) st 0 0 xs).map Prod.swap
      else .ok (xs, st)
    let (sps', st'') ← plainAdvance isDel charged core (k + 1) sps st'
    return ((c, ys) :: sps', st'')

/-- One call on plain lists: a new particle goes to the end of its list, whoever creates it. -/
def plainExec (sl : Nat) (isDel : α → Bool) (w : List (Bool × List α) × σ) : Op σ α →
    Except Err ((List (Bool × List α) × σ) × List (Obs α))
  | .advance charged core => do
    let w' ← plainAdvance isDel charged core 0 w.1 w.2
    return (w', [])
  | .createList k p | .createSource k p =>
    match w.1[k]? with
    | none => .error .key
    | some (c, xs) => .ok ((w.1.set k (c, xs ++ [p]), w.2), [.created (xs.length % sl : Nat) xs.length p])
  | .look k =>
    match w.1[k]? with
    | none => .error .key
    | some (_, xs) => .ok (w, [.items xs])
  | .other f => do
    let st' ← f w.2
    return ((w.1, st'), [])

/-- A program on plain lists. -/
def plainRun (sl : Nat) (isDel : α → Bool) : List (Op σ α) → List (Bool × List α) × σ →
    Except Err ((List (Bool × List α) × σ) × List (Obs α))
  | [], w => .ok (w, [])
  | op :: ops, w => do
    let (w', os) ← plainExec sl isDel w op
    let (w'', os') ← plainRun sl isDel ops w'
    return (w'', os ++ os')

end Dt.Spec.Prog
