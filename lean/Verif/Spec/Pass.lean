import Verif.Model.Py

/-!
# Specification of a mover pass on a plain list

No segments, no buffers: particles are advanced one after the other, the
survivors are collected in order.
-/

namespace Dt.Spec
variable {σ α : Type}

/-- Advance the particles `xs`, the first of which has position `i` in the
population and would be stored at position `o`.  Storage indices have changed
exactly when an earlier particle was deleted, i.e. when `o ≠ i`. -/
def pass (adv : σ → Int → Int → Bool → α → Except Err (σ × α × Bool)) :
    σ → Nat → Nat → List α → Except Err (σ × List α)
  | st, _, _, [] => .ok (st, [])
  | st, i, o, p :: ps =>
    match adv st i o (decide (o ≠ i)) p with
    | .error e => .error e
    | .ok (st', p', true) =>
      match pass adv st' (i + 1) (o + 1) ps with
      | .error e => .error e
      | .ok (st'', ys) => .ok (st'', p' :: ys)
    | .ok (st', _, false) => pass adv st' (i + 1) o ps

/-- Whether the last particle of a pass was kept (`none`: no particle). -/
def lastFlag (adv : σ → Int → Int → Bool → α → Except Err (σ × α × Bool)) :
    σ → Nat → Nat → List α → Option Bool
  | _, _, _, [] => none
  | st, i, o, p :: ps =>
    match adv st i o (decide (o ≠ i)) p with
    | .error _ => none
    | .ok (st', _, keep) =>
      match lastFlag adv st' (i + 1) (if keep then o + 1 else o) ps with
      | some b => some b
      | none => some keep

/-- Several passes, one after the other (one `adv` per time step). -/
def steps : List (σ → Int → Int → Bool → α → Except Err (σ × α × Bool)) → σ → List α →
    Except Err (σ × List α)
  | [], st, xs => .ok (st, xs)
  | adv :: advs, st, xs =>
    match pass adv st 0 0 xs with
    | .error e => .error e
    | .ok (st', ys) => steps advs st' ys

/-- One observation made while a particle is processed: the indices and the flag
handed to the per-particle code, the record before and after, and whether it
was kept. -/
structure Entry (α : Type) where
  iIn : Int
  iOut : Int
  indexChange : Bool
  before : α
  after : α
  keep : Bool
  deriving DecidableEq, Repr

/-- The same per-particle code with an observer attached. -/
def logged (adv : σ → Int → Int → Bool → α → Except Err (σ × α × Bool)) :
    σ × List (Entry α) → Int → Int → Bool → α →
      Except Err ((σ × List (Entry α)) × α × Bool) :=
  fun (st, log) i o ic p =>
    match adv st i o ic p with
    | .error e => .error e
    | .ok (st', p', keep) => .ok ((st', log ++ [⟨i, o, ic, p, p', keep⟩]), p', keep)

/-- The records kept, according to a log. -/
def kept (log : List (Entry α)) : List α := (log.filter (·.keep)).map (·.after)

end Dt.Spec
