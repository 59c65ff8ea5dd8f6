import Mathlib.Logic.Function.Iterate
import Verif.Model.Sources

/-!
# What particle creation is meant to achieve
-/

namespace Dt
namespace Sources
variable {K : Type} [Field K]

/-- `n` successive outputs of a random generator started in state `g`. -/
def samples {γ : Type} (f : γ → K × γ) (n : Nat) (g : γ) : List K :=
  (List.range n).map (fun i => (f ((fun h => (f h).2)^[i] g)).1)

/-- A velocity drawn from the thermal distribution plus the drift velocity (one drift component is
used for all directions). -/
def Moving {γ : Type} (nrm : γ → K × γ) (pDim : Nat) (drift u : List K) : Prop :=
  (drift.length = pDim ∧ ∃ g, u = (List.range pDim).map (fun i => (samples nrm pDim g).getD i 0 + drift.getD i 0)) ∨
  ∃ d, drift = [d] ∧ ∃ g, u = (samples nrm pDim g).map (· + d)

/-- `ps` is the population created in cell number `icell` of a region: `par.perCell` equal
particles, carrying together the weight `total`, at rest relative to the crossing counter, labelled
with the cell; the first at the midpoint, the others inside the cell. -/
structure IsFill {γ : Type} (nrm : γ → K × γ) (pDim : Nat) (r : Region K) (par : Params K) (total : K) (c : SrcCell K) (icell : Nat)
    (ps : List (Rec K)) : Prop where
  count : ps.length = par.perCell
  weights : (ps.map Rec.weight).sum = total
  equal : ∀ p ∈ ps, ∀ q ∈ ps, p.weight = q.weight
  label : ∀ p ∈ ps, p.cell = c.index
  start : ∀ p ∈ ps, p.x0 = p.x
  fresh : ∀ p ∈ ps, p.crossings = 0
  dims : ∀ p ∈ ps, p.x.length = pDim ∧ p.u.length = pDim
  moving : ∀ p ∈ ps, Moving nrm pDim par.drift p.u
  pad : ∀ p ∈ ps, p.x.drop c.mid.length = List.replicate (pDim - c.mid.length) 0
  first : ∀ p, ps.head? = some p → p.x.take c.mid.length = c.mid
  inside : ∀ p ∈ ps.tail, r.inCell p.x icell = true

/-- The weight asked for in a cell: density times volume, in `spherical_r` divided by 4 pi. -/
def asked (spherical : Bool) (fourPi : K) (par : Params K) (c : SrcCell K) : K :=
  if spherical then par.density * c.vol / fourPi else par.density * c.vol

/-- `ids` are identities drawn from the counter while it went from `c` to `c'`, each once. -/
def Drawn (c c' : Nat) (uids : List Int) : Prop :=
  ∃ ns : List Nat, uids = ns.map (fun n : Nat => wrap32 (n : Int)) ∧ ns.Nodup ∧ ∀ n ∈ ns, c ≤ n ∧ n < c'

/-- The steps among `1..n` at which a source of interval `k` is due. -/
def due (k : Int) (n : Nat) : List Nat := (List.range' 1 n).filter (fun s => decide (k ∣ (s : Int)))

end Sources
end Dt

namespace Dt.Spec

/-- Any number of particles can be appended without an exception. -/
def CanGrow {α : Type _} (s : SAP α) : Prop := ∀ zs : List α, ∃ r, s.pushAll zs = .ok r

end Dt.Spec
