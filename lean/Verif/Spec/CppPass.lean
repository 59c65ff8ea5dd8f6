import Verif.Spec.Pass

/-! # Specification of a compiled mover pass on a plain list -/

namespace Dt.Spec
variable {σ α : Type}

/-- Particles satisfying `skip` are dropped without running the per-particle code. -/
def skipping (skip : α → Bool) (adv : σ → Int → Int → Bool → α → Except Err (σ × α × Bool)) :
    σ → Int → Int → Bool → α → Except Err (σ × α × Bool) :=
  fun st i o ic p => if skip p then .ok (st, p, false) else adv st i o ic p

/-- Whether the last particle that was not skipped was kept (`none`: all were skipped). -/
def lastMoved (skip : α → Bool) (adv : σ → Int → Int → Bool → α → Except Err (σ × α × Bool)) :
    σ → Nat → Nat → List α → Option Bool
  | _, _, _, [] => none
  | st, i, o, p :: ps =>
    if skip p then lastMoved skip adv st (i + 1) o ps
    else
      match adv st i o (decide (o ≠ i)) p with
      | .error _ => none
      | .ok (st', _, keep) =>
        match lastMoved skip adv st' (i + 1) (if keep then o + 1 else o) ps with
        | some b => some b
        | none => some keep

end Dt.Spec
