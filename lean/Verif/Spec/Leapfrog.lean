import Verif.Spec.Straight
import Verif.Spec.TimeLoop

/-!
# Specification of the motion in a simulation without tracking

Position, velocity and the user attributes of the particles, no cells, no facets: leapfrog steps in
the field of the step; particles outside the domain are dropped.
-/

namespace Dt
variable {K : Type} [Field K] [LinearOrder K] {g p : Nat} {τ ρ : Type}

/-- Position, velocity and the other attributes (weight, ID, ...). -/
def kin (q : Part K p ρ) : Vec K p × Vec K p × ρ := (q.x, q.u, q.rest)

/-- A leapfrog step in the field `e`; `qom` is the charge-to-mass ratio. -/
def leap (dt qom : K) (e : Option (Vec K p)) (k : Vec K p × Vec K p × ρ) : Vec K p × Vec K p × ρ :=
  let u := k.2.1 + (qom * dt) • e.getD 0
  (k.1 + dt • u, u, k.2.2)

/-- A boundary condition that changes nothing of a particle but marks it for deletion at the boundary;
it may change its own state (count, add up the charge, ...). -/
structure PlainBC (M : Mesh K g) (bc : Int → τ → BCall K g p ρ → Except Err (τ × Part K p ρ)) : Prop where
  total : ∀ st call n, call.normal = some n → M.marker call.facet ≠ 0 →
    ∃ r, bc (M.marker call.facet) st call = .ok r
  only : ∀ value st call st' q', bc value st call = .ok (st', q') → q' = { call.part with del := q'.del }
  interior : ∀ st call st' q', bc (M.marker call.facet) st call = .ok (st', q') →
    M.marker call.facet ≠ 0 → M.Interior call.facet → q'.del = call.part.del
  boundary : ∀ st call st' q' n, bc (M.marker call.facet) st call = .ok (st', q') →
    M.Boundary call.facet n → q'.del = true

/-- The cells lie in the domain, and the domain lies behind every boundary facet (it is convex). -/
structure Mesh.Convex (M : Mesh K g) (dom : Vec K g → Bool) : Prop where
  cells : ∀ ci c q, M.cell ci = some c → c.Has q → dom q = true
  behind : ∀ ci c (k : Nat), M.cell ci = some c → c.neighbors[k]? = some (-1) →
    ∀ q, dom q = true → c.Behind k q

open Spec in
open TimeLoop (Cfg) in
/-- The state `j` follows from the state `i`: the particles of a charged species move by `motion` in
the field of `i`, those for which `keep` does not hold then are dropped, the particles of sources are
added at the end; neutral particles stay; the potential is that of the charge of the new particles. -/
def MotionStep {V σ φ : Type} (motion : String → φ → Part K p ρ → Vec K p × Vec K p × ρ)
    (keep : Vec K p → Bool) (cfg : Cfg K V (Part K p ρ) σ φ) (sl D : Nat)
    (i j : Ideal K V (Part K p ρ) σ) : Prop :=
  j.count = i.count + 1 ∧ j.time = i.time + cfg.dt ∧ j.phi = potential cfg D j.pops ∧
  List.Forall₂ (fun s s' => s'.name = s.name ∧ s'.charge = s.charge ∧ s'.mass = s.mass ∧
    s'.index = s.index ∧
    s'.st.items.map kin =
      (if s.charge = 0 then s.st.items.map kin
       else (s.st.items.map (motion s.name (cfg.fieldOf i.phi))).filter (fun k => keep k.1)) ++
      (i.made cfg sl s.name).map kin) i.pops j.pops

open Spec in
open TimeLoop (Cfg) in
/-- Leapfrog steps; particles outside the domain are dropped. -/
def LeapStep {V σ φ : Type} (h : g ≤ p) (dom : Vec K g → Bool) (qom : String → K)
    (E : String → φ → Part K p ρ → Option (Vec K p)) (cfg : Cfg K V (Part K p ρ) σ φ) (sl D : Nat)
    (i j : Ideal K V (Part K p ρ) σ) : Prop :=
  MotionStep (fun sn f q => leap cfg.dt (qom sn) (E sn f q) (kin q)) (fun x => dom (proj h x)) cfg sl D i j

end Dt
