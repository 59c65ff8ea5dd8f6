import Verif.Model.TimeLoop
import Verif.Model.Track

/-!
# The Python movers as the integrators of a simulation

`self.integrators[sn](sn, ctrl, neg_E_field=..., external_E_field=..., accel_only=...)` in
`advance_charged_particles_in_E_field` (Particle_Module.py:1390-1411) with
`advance_charged_species_in_E_field` (1416-1853), as the argument `move` of `TimeLoop`.

Simplifications
* No trajectories: `self.traj_T` is None, so that the points recorded at marked facets (1712) and the
  bookkeeping of trajectory indices (1810-1829) are dropped.
* The field at a particle is an argument (see `EField`).
-/

namespace Dt
variable {K : Type} [Field K] [LinearOrder K] {g p : Nat} {τ ρ φ : Type}

/-- One particle: the record left in the "out" slot and whether its DELETE_FLAG is clear
(Particle_Module.py:1802-1829). -/
def plainAdv {σ E : Type} (core : σ → Part K p ρ → Except Err (σ × Part K p ρ × E)) :
    Adv σ (Part K p ρ) := fun st _ _ _ q => do
  let (st', q', _) ← core st q
  return (st', q', !q'.del)

/-- `advance_charged_species_in_E_field` for the species `sn` (Particle_Module.py:1448-1470, 1554-1829):
`qmdt = self.qom[sn]*dt`, the callbacks of that species, the field `E sn f`; `ctrl.time` is the time
being integrated to. -/
def pyMove (h : g ≤ p) (M : Mesh K g)
    (bc : String → Int → τ → BCall K g p ρ → Except Err (τ × Part K p ρ)) (maxCross : Nat)
    (dt : K) (qom : String → K) (E : String → φ → Part K p ρ → Option (Vec K p)) :
    String → φ → Int → K → Adv (τ × Vec K p) (Part K p ρ) := fun sn f _ time =>
  plainAdv (moveCharged h M .charged (bc sn) maxCross time dt (qom sn * dt) false (E sn f))

end Dt
