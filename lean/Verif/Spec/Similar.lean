import Verif.Spec.Plasma

/-!
# Specification: other units, and axes of another origin, direction or handedness, on any mesh
-/

namespace Dt.Spec
open Topology Poisson TimeLoop
variable {K : Type} [Field K] [LinearOrder K] {g : Nat} {ρ V σ φ τ : Type}

/-- A change of coordinates: how directions turn (or are reflected), where the old origin is, and the old units of
length, time, mass and charge, measured in the new ones. -/
structure Frame (K : Type) (g : Nat) where
  turn : Vec K g → Vec K g
  origin : Vec K g
  len : K
  time : K
  mass : K
  charge : K

namespace Frame

/-- Turning is linear and keeps lengths and angles; units are positive. -/
structure Valid (F : Frame K g) : Prop where
  add : ∀ v w, F.turn (v + w) = F.turn v + F.turn w
  smul : ∀ (a : K) v, F.turn (a • v) = a • F.turn v
  dot : ∀ v w, Dt.dot (F.turn v) (F.turn w) = Dt.dot v w
  len : 0 < F.len
  time : 0 < F.time
  mass : 0 < F.mass
  charge : 0 < F.charge

/-- A position. -/
def pos (F : Frame K g) (x : Vec K g) : Vec K g := F.len • F.turn x + F.origin

/-- A displacement. -/
def move (F : Frame K g) (v : Vec K g) : Vec K g := F.len • F.turn v

/-- A velocity. -/
def vel (F : Frame K g) (u : Vec K g) : Vec K g := (F.len / F.time) • F.turn u

/-- A potential: energy per charge. -/
def volt (F : Frame K g) (v : K) : K := F.mass * F.len ^ 2 / (F.time ^ 2 * F.charge) * v

/-- A charge-to-mass ratio. -/
def ratio (F : Frame K g) (q : K) : K := F.charge / F.mass * q

/-- The permittivity: charge per voltage and length; in fewer than three dimensions charges and masses are those per
length or area. -/
def perm (F : Frame K g) (e : K) : K := F.charge ^ 2 * F.time ^ 2 / (F.mass * F.len ^ g) * e

/-- The value of a boundary condition. -/
def val (F : Frame K g) : Val K → Val K
  | .num v => .num (F.volt v)
  | .unset => .unset

/-- A particle. -/
def part (F : Frame K g) (q : Part K g ρ) : Part K g ρ := { q with x := F.pos q.x, x0 := F.pos q.x0, u := F.vel q.u }

/-- A species. -/
def pop (F : Frame K g) (p : Pop K V (Part K g ρ)) : Pop K V (Part K g ρ) :=
  { p with charge := F.charge * p.charge, mass := F.mass * p.mass, st := ⟨p.st.items.map F.part, p.st.stale⟩ }

/-- A state of a simulation, with user data `τ` and the displacement last written to `self.dx`. -/
def state (F : Frame K g) (i : Ideal K V (Part K g ρ) (τ × Vec K g)) : Ideal K V (Part K g ρ) (τ × Vec K g) :=
  ⟨i.count, F.time * i.time, i.pops.map F.pop, (i.side.1, F.move i.side.2), i.phi.map F.volt⟩

/-- Lists of initial particles. -/
def lists (F : Frame K g) (l : List (String × List (Part K g ρ))) : List (String × List (Part K g ρ)) :=
  l.map (fun a => (a.1, a.2.map F.part))

end Frame

/-- The same mesh in other coordinates: the same numbers, with other coordinates, normals and volumes. -/
structure SameMesh (hg : g ≤ 3) (F : Frame K g) (D D' : DMesh K g) (sh sh' : Shape K g) : Prop where
  cells : List.Forall₂ (fun c c' => c'.index = c.index ∧ c'.verts = c.verts ∧ c'.facets = c.facets ∧
    (∀ k ≤ g, cutNormal hg (c'.normal k) = F.turn (cutNormal hg (c.normal k))) ∧ sh'.vol c' = F.len ^ g * sh.vol c) D.cells D'.cells
  coord : ∀ v, D'.coord v = F.pos (D.coord v)
  attached : D'.attached = D.attached

/-- The callbacks do the same in other coordinates. -/
def SameBC (F : Frame K g) (bc bc' : Int → τ → BCall K g g ρ → Except Err (τ × Part K g ρ)) : Prop :=
  ∀ m t (a : BCall K g g ρ), bc' m t ⟨F.part a.part, a.facet, a.frac, a.normal.map F.turn, F.move a.dx⟩ =
    (bc m t a).map (fun r => (r.1, F.part r.2))

/-- The sources make the same particles in other coordinates. -/
def SameSources (F : Frame K g) (l l' : List (Src K (Part K g ρ) (τ × Vec K g))) : Prop :=
  List.Forall₂ (fun s s' => s'.species = s.species ∧ s'.interval = s.interval ∧
    ∀ count time side, s'.make count (F.time * time) (side.1, F.move side.2) =
      (s.make count time side).map (fun r => ((r.1.1, F.move r.1.2), r.2.map F.part))) l l'

/-- The same particles, potential and time in other coordinates, whatever the data of movers and sources are. -/
structure SeenFrom (F : Frame K g) {σ σ' : Type} (i : Ideal K V (Part K g ρ) σ) (i' : Ideal K V (Part K g ρ) σ') : Prop where
  count : i'.count = i.count
  time : i'.time = F.time * i.time
  pops : i'.pops = i.pops.map F.pop
  phi : i'.phi = i.phi.map F.volt

/-- The same for the sources of compiled programs, which do not use the scratch array of the mover. -/
def SameCppSources (F : Frame K g) {S : Type} (l l' : List (Src K (Part K g ρ) ((τ × Vec K g) × S))) : Prop :=
  List.Forall₂ (fun s s' => s'.species = s.species ∧ s'.interval = s.interval ∧
    ∀ count time side side', side'.1 = (side.1.1, F.move side.1.2) →
      (∃ e e', s.make count time side = .error e ∧ s'.make count (F.time * time) side' = .error e') ∨
      ∃ r r', s.make count time side = .ok r ∧ s'.make count (F.time * time) side' = .ok r' ∧
        r'.1.1 = (r.1.1.1, F.move r.1.1.2) ∧ r'.2 = r.2.map F.part) l l'

end Dt.Spec
