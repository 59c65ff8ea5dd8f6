import Verif.Spec.TimeLoop

/-!
# Simulations that differ in their settings for storage and output
-/

namespace Dt.Spec
open TimeLoop (Cfg)
variable {K V α σ φ : Type}

/-- The same physics: everything but the settings of the particle file, the cell-density file, the field
file and the histories. -/
structure SamePhysics (cfg cfg' : Cfg K V α σ φ) : Prop where
  dt : cfg'.dt = cfg.dt
  move : cfg'.move = cfg.move
  sources : cfg'.sources = cfg.sources
  A : cfg'.A = cfg.A
  SD : cfg'.SD = cfg.SD
  bc : cfg'.bc = cfg.bc
  solve : cfg'.solve = cfg.solve
  factor : cfg'.factor = cfg.factor
  fieldOf : cfg'.fieldOf = cfg.fieldOf

/-- The same species with the same particles in the same order. -/
structure SamePop (p p' : Pop K V α) : Prop where
  name : p'.name = p.name
  charge : p'.charge = p.charge
  items : p'.st.items = p.st.items

/-- The same step, time, particles, side state and potential. -/
structure SameState (i i' : Ideal K V α σ) : Prop where
  count : i'.count = i.count
  time : i'.time = i.time
  pops : List.Forall₂ SamePop i.pops i'.pops
  side : i'.side = i.side
  phi : i'.phi = i.phi

end Dt.Spec
