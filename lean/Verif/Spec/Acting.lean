import Verif.Spec.Permute

/-!
# Specification: the particles that act on others, on any mesh
-/

namespace Dt.Spec
open TimeLoop (Cfg)
variable {K V α σ φ : Type}

/-- The same laws of motion and the same field equations: only the sources, the output settings and the histories may
differ. -/
structure SameLaws (cfg cfg' : Cfg K V α σ φ) : Prop where
  dt : cfg'.dt = cfg.dt
  move : cfg'.move = cfg.move
  A : cfg'.A = cfg.A
  SD : cfg'.SD = cfg.SD
  bc : cfg'.bc = cfg.bc
  solve : cfg'.solve = cfg.solve
  factor : cfg'.factor = cfg.factor
  fieldOf : cfg'.fieldOf = cfg.fieldOf

variable [Field K] [DecidableEq K]

/-- The particles with a weight. -/
def heavy (weight : α → K) (xs : List α) : List α := xs.filter (fun q => decide (weight q ≠ 0))

/-- The charged species: names, charges, and their particles with a weight. -/
def actors (weight : α → K) (l : List (Pop K V α)) : List (String × K × List α) :=
  (l.filter (fun s => decide (s.charge ≠ 0))).map (fun s => (s.name, s.charge, heavy weight s.st.items))

/-- The mover treats each particle by itself and keeps weights from vanishing or appearing. -/
def KeepsWeight (weight : α → K) (adv : Adv σ α) : Prop :=
  ∀ st i o b q st' q' k, adv st i o b q = .ok (st', q', k) → (weight q' = 0 ↔ weight q = 0)

/-- The same actors, up to the order of the particles of a species. -/
def SameActors (l l' : List (String × K × List α)) : Prop :=
  List.Forall₂ (fun a a' => a'.1 = a.1 ∧ a'.2.1 = a.2.1 ∧ a'.2.2.Perm a.2.2) l l'

/-- Two states with the same potential and the same actors.  Neutral species and particles without weight do not count. -/
def ActAlike (weight : α → K) (i i' : Ideal K V α σ) : Prop :=
  i'.count = i.count ∧ i'.time = i.time ∧ i'.phi = i.phi ∧ SameActors (actors weight i.pops) (actors weight i'.pops)

end Dt.Spec
