import Verif.Model.TimeLoop

/-!
# Model of the time loop with a rounded clock

`ctrl.time += ctrl.dt` (examples/sphere1D/sphere1D.py:1278) is one floating-point addition for each step; here its result is rounded by an
arbitrary function.  The step counter is an integer and stays exact (line 1277).  Everything else is as in `TimeLoop`; the movers and
sources, which are arguments, may round too.
-/

namespace Dt
namespace TimeLoop
variable {K V α σ φ : Type} [Field K] [LinearOrder K]

/-- One round of the time loop (sphere1D.py:1274-1375), `ctrl.time` rounded by `fl`. -/
def stepRounded (fl : K → K) (cfg : Cfg K V α σ φ) (st : State K V α σ φ) : Except Err (State K V α σ φ) := do
  let st1 ← particles cfg { st with count := st.count + 1, time := fl (st.time + cfg.dt) }
  let st2 ← writeDue cfg st1
  let st3 ← densities cfg cfg.cellEvery st2
  let st4 ← solveDue cfg st3
  histDue cfg st4

/-- `for istep in range(ctrl.n_timesteps)` (sphere1D.py:1274). -/
def stepsRounded (fl : K → K) (cfg : Cfg K V α σ φ) : Nat → State K V α σ φ → Except Err (State K V α σ φ)
  | 0, st => .ok st
  | n + 1, st => do
    let st' ← stepRounded fl cfg st
    stepsRounded fl cfg n st'

end TimeLoop
end Dt
